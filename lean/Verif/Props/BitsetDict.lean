import Verif.Model.BitsetDict
import Verif.Props.BSD
import Verif.Props.Subgroup
import Verif.Props.FitArgs
import Verif.Props.Nesting
/-! Property C99: the dictionaries of the bitsets of BSD are maps from patterns to bit arrays. -/
namespace Verif
open Spec BitsetDict

namespace Spec
/-- the selectors of the pattern that a key stands for: a selector stands for the pattern with that selector only -/
def keySels : Key → Option (List Selector)
  | .sel s => some [s]
  | .pat p => some p.sels
  | .other _ => none

/-- the assignments `d[k] = v` of a history that are allowed, in order: the pattern and the bits -/
def storedBy : List (Key × Item) → List (List Selector × Bits)
  | [] => []
  | (k, .bits b) :: rest => match keySels k with
    | some X => (X, b) :: storedBy rest
    | none => storedBy rest
  | (_, .other _) :: rest => storedBy rest

/-- the bits of the last assignment to the pattern `X` -/
def lastStored (h : List (Key × Item)) (X : List Selector) : Option Bits :=
  ((storedBy h).reverse.find? (fun e => e.1 = X)).map (·.2)

/-- the patterns with an assignment, in order of their first assignment -/
def firstStored (h : List (Key × Item)) : List (List Selector) := ((storedBy h).map (·.1)).reverse.dedup.reverse

/-- the texts of these selectors cannot be confused with each other in the text of a pattern -/
def KeyPlain (s : Selector) : Prop := ' ' ∉ s.attr ∧ ¬ Occurs c!", " s.str

/-- the dictionary after a history of assignments: a refused one changes nothing -/
def dictRun (h : List (Key × Item)) : Dict Bits :=
  h.foldl (fun d e => match setitem d e.1 e.2 with | .ok d' => d' | .error _ => d) []
end Spec

theorem new_one (s : Selector) : (Pattern.new [s]).sels = [s] := by
  rfl

theorem pat_str_eq (p q : Pattern) (h : p.sels = q.sels) : p.str = q.str := by
  cases p; cases q; simp only at h; subst h; rfl

theorem text_sels {k : Key} {X : List Selector} (h : keySels k = some X) : k.text = .ok (Pattern.mk X).str := by
  cases k with
  | sel s => cases h; exact congrArg _ (pat_str_eq _ _ (new_one s))
  | pat p => cases h; rfl
  | other i => cases h

theorem text_none {k : Key} (h : keySels k = none) : k.text = .error .typeError := by
  cases k with
  | sel s => cases h
  | pat p => cases h
  | other i => rfl

theorem map_str_inj {l m : List Selector} (hl : ∀ s ∈ l, ' ' ∉ s.attr) (hm : ∀ s ∈ m, ' ' ∉ s.attr) (h : l.map Selector.str = m.map Selector.str) : l = m := by
  induction l generalizing m with
  | nil => cases m with
    | nil => rfl
    | cons => cases h
  | cons a l ih => cases m with
    | nil => cases h
    | cons b m =>
      simp only [List.map_cons, List.cons.injEq] at h
      rw [Selector.str_inj_of_no_blank (hl a (by simp)) (hm b (by simp)) h.1, ih (fun s hs => hl s (by simp [hs])) (fun s hs => hm s (by simp [hs])) h.2]

/-- patterns with the same text have the same selectors -/
theorem pattern_text_inj {X Y : List Selector} (hX : ∀ s ∈ X, KeyPlain s) (hY : ∀ s ∈ Y, KeyPlain s) (h : (Pattern.mk X).str = (Pattern.mk Y).str) : X = Y := by
  unfold Pattern.str at h
  cases X with
  | nil => cases Y with
    | nil => rfl
    | cons b Y =>
      obtain ⟨body, h1, h2⟩ := strLoop_eq b Y
      simp only [List.length_nil, if_pos, List.length_cons, Nat.add_eq_zero_iff, one_ne_zero, and_false, if_false, h1] at h
      have hb : body = [] := by
        have h' : c!"]" = body ++ c!"]" := by simpa using h
        exact List.append_left_eq_self.1 h'.symm
      have h3 := h2 (fun s hs => (hY s hs).2)
      rw [hb] at h3
      obtain ⟨c, cs, h4⟩ := str_ne_nil b
      have h5 : splitOn c!", " [] = [[]] := rfl
      rw [h5, List.map_cons, h4] at h3
      simp at h3
  | cons a X => cases Y with
    | nil =>
      obtain ⟨body, h1, h2⟩ := strLoop_eq a X
      simp only [List.length_nil, if_pos, List.length_cons, Nat.add_eq_zero_iff, one_ne_zero, and_false, if_false, h1] at h
      have hb : body = [] := by
        have h' : body ++ c!"]" = c!"]" := by simpa using h
        exact List.append_left_eq_self.1 h'
      have h3 := h2 (fun s hs => (hX s hs).2)
      rw [hb] at h3
      obtain ⟨c, cs, h4⟩ := str_ne_nil a
      have h5 : splitOn c!", " [] = [[]] := rfl
      rw [h5, List.map_cons, h4] at h3
      simp at h3
    | cons b Y =>
      obtain ⟨x, x1, x2⟩ := strLoop_eq a X
      obtain ⟨y, y1, y2⟩ := strLoop_eq b Y
      simp only [List.length_cons, Nat.add_eq_zero_iff, one_ne_zero, and_false, if_false, x1, y1, List.cons.injEq, true_and] at h
      have hxy : x = y := List.append_cancel_right h
      have e1 := x2 (fun s hs => (hX s hs).2)
      have e2 := y2 (fun s hs => (hY s hs).2)
      rw [hxy, e2] at e1
      exact map_str_inj (fun s hs => (hX s hs).1) (fun s hs => (hY s hs).1) e1.symm

/-- the keys of the history are plain -/
def PlainHist (h : List (Key × Item)) : Prop := ∀ e ∈ storedBy h, ∀ s ∈ e.1, KeyPlain s

theorem storedBy_append (h h' : List (Key × Item)) : storedBy (h ++ h') = storedBy h ++ storedBy h' := by
  induction h with
  | nil => rfl
  | cons e h ih =>
    obtain ⟨k, v⟩ := e
    cases v with
    | other i => exact ih
    | bits b =>
      simp only [List.cons_append, storedBy]
      cases keySels k with
      | none => exact ih
      | some X => simp [ih]

/-- the dictionary is that of the allowed assignments -/
theorem dictRun_eq (h : List (Key × Item)) : dictRun h = (storedBy h).foldl (fun (d : Dict Bits) e => d.set (Pattern.mk e.1).str e.2) [] := by
  unfold dictRun
  generalize ([] : Dict Bits) = d
  induction h generalizing d with
  | nil => rfl
  | cons e h ih =>
    obtain ⟨k, v⟩ := e
    rw [List.foldl_cons, ih]
    cases v with
    | other i => rfl
    | bits b =>
      simp only [storedBy, setitem]
      cases hk : keySels k with
      | none => simp only [text_none hk]
      | some X => simp only [text_sels hk, List.foldl_cons]

theorem lookup_fold (l : List (List Selector × Bits)) (d : Dict Bits) (hl : ∀ e ∈ l, ∀ s ∈ e.1, KeyPlain s) {X : List Selector} (hX : ∀ s ∈ X, KeyPlain s) :
    (l.foldl (fun (d : Dict Bits) e => d.set (Pattern.mk e.1).str e.2) d).lookup (Pattern.mk X).str =
      ((l.reverse.find? (fun e => e.1 = X)).map (·.2)).or (d.lookup (Pattern.mk X).str) := by
  induction l generalizing d with
  | nil => simp
  | cons e l ih =>
    rw [List.foldl_cons, ih _ (fun e' he' => hl e' (by simp [he'])), List.reverse_cons, List.find?_append]
    cases l.reverse.find? (fun e => e.1 = X) with
    | some r => simp
    | none =>
      simp only [Option.map_none, Option.none_or]
      rw [BSD.dict_lookup_set]
      by_cases he : e.1 = X
      · simp [he]
      · have hne : (Pattern.mk X).str ≠ (Pattern.mk e.1).str := fun hh => he (pattern_text_inj (hl e (by simp)) hX hh.symm)
        simp [he, hne]

/-- the elements of `l` that are not yet in `acc`, added one by one -/
def addNew {α : Type} [DecidableEq α] (l acc : List α) : List α := l.foldl (fun ks t => if t ∈ ks then ks else ks ++ [t]) acc

theorem addNew_cons {α : Type} [DecidableEq α] (t : α) (l acc : List α) : addNew (t :: l) acc = addNew l (if t ∈ acc then acc else acc ++ [t]) := rfl

theorem fold_keys (l : List (List Selector × Bits)) (d : Dict Bits) :
    (l.foldl (fun (d : Dict Bits) e => d.set (Pattern.mk e.1).str e.2) d).map (·.1) =
      addNew (l.map (fun e => (Pattern.mk e.1).str)) (d.map (·.1)) := by
  induction l generalizing d with
  | nil => rfl
  | cons e l ih =>
    rw [List.foldl_cons, ih, List.map_cons, addNew_cons]
    congr 1
    unfold Dict.set
    by_cases h : d.any (fun x => x.1 == (Pattern.mk e.1).str) = true
    · rw [if_pos h]
      have : (Pattern.mk e.1).str ∈ d.map (·.1) := by
        obtain ⟨x, hx, hk⟩ := List.any_eq_true.1 h
        exact List.mem_map.2 ⟨x, hx, by simpa using hk⟩
      rw [if_pos this, List.map_map]
      apply List.map_congr_left
      intro x _
      simp only [Function.comp]
      split
      · next hh => exact (by simpa using hh : x.1 = _).symm
      · rfl
    · rw [if_neg h]
      have : (Pattern.mk e.1).str ∉ d.map (·.1) := by
        intro hc
        obtain ⟨x, hx, hk⟩ := List.mem_map.1 hc
        exact h (List.any_eq_true.2 ⟨x, hx, by simp [hk]⟩)
      rw [if_neg this]
      simp

/-- keeping the first occurrences -/
theorem firsts_eq {α : Type} [DecidableEq α] (l acc : List α) :
    addNew l acc = acc ++ (l.reverse.dedup.reverse).filter (fun t => t ∉ acc) := by
  induction l generalizing acc with
  | nil => simp [addNew]
  | cons t l ih =>
    rw [addNew_cons, List.reverse_cons]
    have hd : (l.reverse ++ [t]).dedup.reverse = t :: (l.reverse.dedup.reverse).filter (fun x => x ≠ t) := by
      rw [List.dedup_append, show [t].dedup = [t] from by simp]
      have : ∀ m : List α, (List.reverse (m ∪ [t])) = t :: m.dedup.reverse.filter (fun x => x ≠ t) := by
        intro m
        induction m with
        | nil => rfl
        | cons a m ihm =>
          rw [List.cons_union]
          by_cases ham : a ∈ m
          · rw [List.insert_of_mem (List.mem_union_iff.2 (.inl ham)), ihm, List.dedup_cons_of_mem ham]
          · rw [List.dedup_cons_of_notMem ham]
            by_cases hat : a = t
            · rw [List.insert_of_mem (List.mem_union_iff.2 (.inr (by simp [hat]))), ihm]
              simp [hat]
            · rw [List.insert_of_not_mem (by simp [List.mem_union_iff, ham, hat]), List.reverse_cons, ihm]
              simp [List.filter_append, hat]
      exact this _
    rw [hd, ih]
    by_cases ht : t ∈ acc
    · rw [if_pos ht, List.filter_cons]
      simp only [ht, not_true_eq_false, decide_false, Bool.false_eq_true, if_false, List.filter_filter]
      congr 1
      apply List.filter_congr
      intro x _
      by_cases hx : x ∈ acc
      · simp [hx]
      · have : x ≠ t := fun h => hx (h ▸ ht)
        simp [hx, this]
    · rw [if_neg ht, List.filter_cons]
      simp only [ht, not_false_eq_true, decide_true, if_true, List.append_assoc, List.singleton_append, List.filter_filter]
      congr 2
      apply List.filter_congr
      intro x _
      by_cases hx : x ∈ acc <;> by_cases hxt : x = t <;> simp [hx, hxt]

theorem dedup_map {α β : Type} [DecidableEq α] [DecidableEq β] (f : α → β) (l : List α) (hf : ∀ a ∈ l, ∀ b ∈ l, f a = f b → a = b) :
    (l.map f).dedup = l.dedup.map f := by
  induction l with
  | nil => rfl
  | cons a l ih =>
    have ih' := ih (fun x hx y hy => hf x (by simp [hx]) y (by simp [hy]))
    by_cases h : a ∈ l
    · rw [List.map_cons, List.dedup_cons_of_mem (List.mem_map_of_mem h), List.dedup_cons_of_mem h, ih']
    · have : f a ∉ l.map f := by
        intro hc
        obtain ⟨b, hb, e⟩ := List.mem_map.1 hc
        exact h (hf b (by simp [hb]) a (by simp) e ▸ hb)
      rw [List.map_cons, List.dedup_cons_of_notMem this, List.dedup_cons_of_notMem h, List.map_cons, ih']

theorem dict_keys (h : List (Key × Item)) (hp : PlainHist h) : (dictRun h).map (·.1) = (firstStored h).map (fun X => (Pattern.mk X).str) := by
  rw [dictRun_eq, fold_keys, List.map_nil, firsts_eq]
  simp only [List.nil_append, List.not_mem_nil, not_false_eq_true, decide_true, List.filter_true]
  have e : (storedBy h).map (fun e => (Pattern.mk e.1).str) = ((storedBy h).map (·.1)).map (fun X => (Pattern.mk X).str) := by simp
  rw [e, ← List.map_reverse, dedup_map]
  · rw [firstStored, ← List.map_reverse]
  · intro X hX Y hY hxy
    obtain ⟨x, hx, rfl⟩ := List.mem_map.1 (List.mem_reverse.1 hX)
    obtain ⟨y, hy, rfl⟩ := List.mem_map.1 (List.mem_reverse.1 hY)
    exact pattern_text_inj (hp x hx) (hp y hy) hxy

/-- **C99.** After any history of assignments (allowed or refused, with selectors or patterns as keys) whose selectors have names without blanks and texts without `", "`: `d[k]` gives the bits
of the last assignment to the pattern of `k` and raises `KeyError` if there was none; `k in d` says whether there was one. A selector stands for the pattern that consists of it. -/
theorem C99_map (h : List (Key × Item)) (hp : ∀ e ∈ storedBy h, ∀ s ∈ e.1, KeyPlain s) (k : Key) (X : List Selector) (hk : keySels k = some X) (hX : ∀ s ∈ X, KeyPlain s) :
    getitem (dictRun h) k = (match lastStored h X with | some b => .ok b | none => .error .keyError) ∧
    contains (dictRun h) k = .ok (decide (X ∈ (storedBy h).map (·.1))) := by
  have hl : (dictRun h).lookup (Pattern.mk X).str = lastStored h X := by
    rw [dictRun_eq, lookup_fold _ _ hp hX, lastStored]; simp
  constructor
  · unfold getitem
    rw [text_sels hk]
    simp only [hl]
    cases lastStored h X <;> rfl
  · unfold contains
    rw [text_sels hk]
    simp only [hl, lastStored, Option.isSome_map]
    congr 1
    rw [Bool.eq_iff_iff, List.find?_isSome, decide_eq_true_iff]
    simp

/-- C99: an assignment is refused with `TypeError` exactly when the value is no `bitarray` or the key neither a selector nor a pattern, and nothing else is refused; the other two operations refuse
other objects with `TypeError`. -/
theorem C99_refused (d : Dict Bits) (k : Key) (v : Item) :
    (setitem d k v = .error .typeError ↔ (∀ b, v ≠ .bits b) ∨ keySels k = none) ∧
    (∀ e, setitem d k v = .error e → e = .typeError) ∧
    (keySels k = none → getitem d k = .error .typeError ∧ contains d k = .error .typeError) ∧
    (keySels k ≠ none → getitem d k ≠ .error .typeError ∧ ∃ b, contains d k = .ok b) := by
  cases k with
  | other i => cases v <;> simp [setitem, getitem, contains, keySels, Key.text]
  | sel s =>
    refine ⟨?_, ?_, by simp [keySels], fun _ => ⟨?_, _, rfl⟩⟩
    · cases v <;> simp [setitem, keySels, Key.text]
    · cases v <;> simp [setitem, Key.text]
    · unfold getitem Key.text
      simp only
      cases d.lookup (Pattern.new [s]).str <;> simp
  | pat p =>
    refine ⟨?_, ?_, by simp [keySels], fun _ => ⟨?_, _, rfl⟩⟩
    · cases v <;> simp [setitem, keySels, Key.text]
    · cases v <;> simp [setitem, Key.text]
    · unfold getitem Key.text
      simp only
      cases d.lookup p.str <;> simp

theorem iterLoop_ok (l : List Str) (ps : List Pattern) (h : List.Forall₂ (fun t p => Pattern.generateFromStr t = .ok p) l ps) : iterLoop l = (ps, none) := by
  induction h with
  | nil => rfl
  | cons h1 _ ih => simp only [iterLoop, h1, ih]

/-- C99: the iteration over a dictionary whose keys can be read back yields the stored patterns, each once, in order of their first assignment, and never raises. `P` are the selectors in
use, which compare in one order (numbers with numbers, texts with texts); the pattern keys were made by the operations of `Pattern`. -/
theorem C99_iter (h : List (Key × Item)) (P : Selector → Prop) (hP : Homogeneous P) (hp : ∀ e ∈ storedBy h, ∀ s ∈ e.1, P s ∧ TextSafe s ∧ ¬ Occurs c!", " s.str)
    (hb : ∀ e ∈ h, ∀ p, e.1 = .pat p → ∃ init ops, p = patRun init ops ∧ ∀ s ∈ mentioned init ops, P s) :
    (iter (dictRun h)).2 = none ∧ List.Forall₂ (fun q X => q.eq (Pattern.mk X) = true) (iter (dictRun h)).1 (firstStored h) ∧ (firstStored h).Nodup ∧
    (dictRun h).length = (firstStored h).length := by
  have hplain : PlainHist h := fun e he s hs => ⟨(hp e he s hs).2.1.2.1, (hp e he s hs).2.2⟩
  have hkeys := dict_keys h hplain
  have hsorted : ∀ X ∈ firstStored h, Pattern.Sorted X ∧ ∀ s ∈ X, P s ∧ TextSafe s ∧ ¬ Occurs c!", " s.str := by
    intro X hX
    have hX' : X ∈ (storedBy h).map (·.1) := by
      rw [firstStored, List.mem_reverse, List.mem_dedup, List.mem_reverse] at hX; exact hX
    obtain ⟨e, he, rfl⟩ := List.mem_map.1 hX'
    refine ⟨?_, hp e he⟩
    clear hX hX' hkeys hplain hp
    induction h with
    | nil => simp [storedBy] at he
    | cons kv h ih =>
      obtain ⟨k, v⟩ := kv
      have ih' := ih (fun e he => hb e (by simp [he]))
      cases v with
      | other i => exact ih' he
      | bits b =>
        simp only [storedBy] at he
        cases hk : keySels k with
        | none => rw [hk] at he; exact ih' he
        | some Y =>
          rw [hk] at he
          rcases List.mem_cons.1 he with rfl | he
          · cases k with
            | other i => cases hk
            | sel s => cases hk; simp [Pattern.Sorted]
            | pat p =>
              cases hk
              obtain ⟨init, ops, rfl, hm⟩ := hb _ List.mem_cons_self p rfl
              exact (run_inv hP init ops hm).2
          · exact ih' he
  have hiter : iter (dictRun h) = ((firstStored h).map (fun X => Pattern.new X), none) := by
    unfold iter
    rw [hkeys]
    apply iterLoop_ok
    rw [List.forall₂_map_left_iff, List.forall₂_map_right_iff, List.forall₂_same]
    intro X hX
    exact pattern_generate ⟨X⟩ (fun s hs => ((hsorted X hX).2 s hs).2.1) (fun s hs => ((hsorted X hX).2 s hs).2.2)
  refine ⟨by rw [hiter], ?_, ?_, ?_⟩
  · rw [hiter]
    simp only
    rw [List.forall₂_map_left_iff, List.forall₂_same]
    intro X hX
    obtain ⟨h1, h2⟩ := hsorted X hX
    have hlt : ∀ a b, P a → P b → (a.lt b = true ↔ a.key < b.key) := fun a b ha hb => Selector.lt_iff_key (hP a b ha hb)
    obtain ⟨n1, n2, n3⟩ := Pattern.new_spec hlt (fun s hs => (h2 s hs).1)
    rw [Pattern.eq_iff_keys]
    refine Pattern.sorted_keys_ext n1 h1 (fun k => ⟨?_, ?_⟩)
    · rintro ⟨t, ht, rfl⟩; exact ⟨t, n2 t ht, rfl⟩
    · rintro ⟨t, ht, rfl⟩; exact n3 t ht
  · rw [firstStored, List.nodup_reverse]; exact List.nodup_dedup _
  · have := congrArg List.length hkeys
    simpa using this

/-- C99: without the conditions the claims are false. Two different patterns may have the same text and hence the same entry; equal patterns (`1 == 1.0`) may have two entries; an iteration may raise. -/
theorem C99_fails :
    (∃ (p q : Pattern) (b c : Bits), p.eq q = false ∧ b ≠ c ∧ getitem (dictRun [(.pat p, .bits b), (.pat q, .bits c)]) (.pat p) = .ok c) ∧
    (∃ (s t : Selector) (b c : Bits), s.eq t = true ∧ b ≠ c ∧ getitem (dictRun [(.sel s, .bits b), (.sel t, .bits c)]) (.sel s) = .ok b ∧
      getitem (dictRun [(.sel s, .bits b)]) (.sel t) = .error .keyError) ∧
    (∃ (s : Selector) (b : Bits), TextSafe s ∧ iter (dictRun [(.sel s, .bits b)]) = ([], some .indexError)) := by
  refine ⟨⟨Pattern.new [⟨c!"a", .equal, .str c!"x', b = 'y"⟩], Pattern.new [⟨c!"a", .equal, .str c!"x"⟩, ⟨c!"b", .equal, .str c!"y"⟩], [true], [false], by decide +kernel, by decide, by decide +kernel⟩,
    ⟨⟨c!"a", .equal, .int 1⟩, ⟨c!"a", .equal, .flt ⟨1, 0, by decide⟩⟩, [true], [false], by decide +kernel, by decide, by decide +kernel, by decide +kernel⟩,
    ⟨⟨c!"a", .equal, .str c!"x, y"⟩, [true], ⟨rfl, by decide, by intro f h; cases h⟩, by decide +kernel⟩⟩

theorem strLoop_end (s : Selector) (rest : List Selector) : (Pattern.strLoop (s :: rest)).getLast? = some ']' := by
  obtain ⟨body, h, _⟩ := strLoop_eq s rest
  rw [h]
  simp

/-- C99: `d.get(k)`, which the class does not redefine, is useless: after any history of assignments it raises `TypeError` for a pattern, and finds nothing for a selector, also when `d[k]` does. -/
theorem C99_get_inherited (h : List (Key × Item)) :
    (∀ p, inheritedGet (dictRun h) (.pat p) = .error .typeError) ∧
    (∀ s, inheritedGet (dictRun h) (.sel s) = .ok none) ∧
    ∃ s b, getitem (dictRun [(.sel s, .bits b)]) (.sel s) = .ok b ∧ inheritedGet (dictRun [(.sel s, .bits b)]) (.sel s) = .ok none := by
  refine ⟨fun _ => rfl, fun s => ?_, ⟨c!"a", .equal, .str c!"x"⟩, [true], by decide +kernel, by decide +kernel⟩
  have hlast : ∀ e ∈ dictRun h, e.1.getLast? = some ']' := by
    intro e he
    have : e.1 ∈ (dictRun h).map (·.1) := List.mem_map_of_mem he
    rw [dictRun_eq, fold_keys, List.map_nil, firsts_eq] at this
    simp only [List.nil_append, List.not_mem_nil, not_false_eq_true, decide_true, List.filter_true, List.mem_reverse, List.mem_dedup, List.mem_map] at this
    obtain ⟨x, _, hx⟩ := this
    rw [← hx]
    unfold Pattern.str
    rcases hs : x.1 with _ | ⟨a, X⟩
    · rfl
    · simp only [List.length_cons, Nat.add_eq_zero_iff, one_ne_zero, and_false, if_false]
      rw [List.getLast?_cons, strLoop_end]; rfl
  have hs : s.str.getLast? ≠ some ']' := by
    have hv : ∃ c, (Selector.valText s.val).getLast? = some c ∧ c ≠ ']' := by
      cases s.val with
      | str t =>
        refine ⟨'\'', ?_, by decide⟩
        show ('\'' :: t ++ ['\'']).getLast? = _
        rw [List.getLast?_append]; rfl
      | int z =>
        obtain ⟨c, cs, hc, _⟩ := intStr_head z
        refine ⟨(intStr z).getLast (by simp [hc]), List.getLast?_eq_some_getLast _, ?_⟩
        rcases intStr_chars z _ (List.getLast_mem (by simp [hc])) with h | h
        · intro he; rw [he] at h; revert h; unfold IsDigit; decide
        · rw [h]; decide
      | flt f =>
        obtain ⟨c, cs, hc, _⟩ := fltStr_head f
        refine ⟨f.str.getLast (by simp [hc]), List.getLast?_eq_some_getLast _, ?_⟩
        rcases fltStr_chars f _ (List.getLast_mem (by simp [hc])) with h | h | h | h | h
        · intro he; rw [he] at h; revert h; unfold IsDigit; decide
        all_goals rw [h]; decide
    obtain ⟨c, h1, h2⟩ := hv
    unfold Selector.str
    rw [List.getLast?_append, h1]
    simpa using h2
  have : (dictRun h).any (fun e => e.1 == s.str) = false := by
    rw [List.any_eq_false]
    intro e he hc
    have : e.1 = s.str := by simpa using hc
    exact hs (this ▸ hlast e he)
  simp [inheritedGet, this]

/-! ## the object with the two dictionaries -/

theorem fill_eq (P N : List Nat) (l : List ((Str × List Val) × Val)) (d : Dict Bits × Dict Bits) :
    BitsetObj.fill P N l d = .ok (l.foldl (fun d e => (d.1.set (BitsetBSD.key ⟨e.1.1, .equal, e.2⟩) (BitsetBSD.bitsOf P e.1.2 e.2),
      d.2.set (BitsetBSD.key ⟨e.1.1, .equal, e.2⟩) (BitsetBSD.bitsOf N e.1.2 e.2))) d) := by
  induction l generalizing d with
  | nil => rfl
  | cons e l ih => unfold BitsetObj.fill; simp only [setitem, Key.text, List.foldl_cons]; exact ih _

/-- C99: `build_bitset` on a new object is what the search algorithms use (property C34 says that it is exact) -/
theorem C99_build_new (df : Frame) (target : Str × Str) (F : List Selector) (mask : List Bool) (hm : targetMask df target = .ok mask) :
    ∃ o, BitsetObj.new.build df target F = .ok o ∧ (o.pos, o.neg) = BitsetBSD.build df target.1 mask F := by
  unfold BitsetObj.build
  simp only [hm, fill_eq]
  exact ⟨_, rfl, rfl⟩

section
open Classical BSD
/-- C99: `build_bitset` on an object with any history, for a nominal data set whose selectors have different texts: it never fails; each selector of `F` that occurs in the data gets its bits, one per
row with (without) the target; every other key gives what it gave before, even if its bits belong to other data; and `all_true_positives`, `all_true_negatives`, which raise `AttributeError` before the
first `build_bitset`, have one bit per row with (without) the target in this data. -/
theorem C99_build (o : BitsetObj) {df : Frame} {target : Str × Str} (hf : NominalFrame df target) (ht : TextsFaithful df target) (F : List Selector)
    (hF : ∀ s ∈ F, Describes target [s] ∧ OccursIn df [s]) :
    ∃ o', o.build df target F = .ok o' ∧
      (∀ s ∈ F, getitem o'.pos (.sel s) = .ok ((posRows df target).map (fun i => decide (MatchesAt df s i))) ∧
        getitem o'.neg (.sel s) = .ok ((negRows df target).map (fun i => decide (MatchesAt df s i)))) ∧
      (∀ k : Key, (∀ s ∈ F, k.text ≠ (Key.sel s).text) → getitem o'.pos k = getitem o.pos k ∧ getitem o'.neg k = getitem o.neg k) ∧
      o'.allTruePositives = .ok ((posRows df target).map (fun _ => true)) ∧ o'.allTrueNegatives = .ok ((negRows df target).map (fun _ => true)) ∧
      BitsetObj.new.allTruePositives = .error .attributeError ∧ BitsetObj.new.allTrueNegatives = .error .attributeError := by
  obtain ⟨mask, hm0, hm1, hm2⟩ := targetMask_ok hf
  have hm : MaskOK df target mask := ⟨hm1, hm2⟩
  generalize hl : (BitsetBSD.pairs df target.1).filter (fun e => F.any (fun t => (⟨e.1.1, .equal, e.2⟩ : Selector).eq t)) = l
  have hmem : ∀ e ∈ l, e ∈ BitsetBSD.pairs df target.1 ∧ itemSel e ∈ F := by
    intro e he
    rw [← hl] at he
    obtain ⟨h1, h2⟩ := List.mem_filter.1 he
    obtain ⟨t, ht1, ht2⟩ := List.any_eq_true.1 h2
    refine ⟨h1, ?_⟩
    have a1 := ((pairs_sel hf).1 (List.mem_map_of_mem h1)).1
    have b1 : IsSel target t := isSel_describes.2 (hF t ht1).1
    have : itemSel e = t := TextEq.key_inj a1.2 b1.2 ((Selector.eq_iff_key _ _).1 ht2)
    rw [this]; exact ht1
  have hpw : l.Pairwise (fun e e' => BitsetBSD.key (itemSel e) ≠ BitsetBSD.key (itemSel e')) := by
    have hnd := nodup_pairs (df := df) hf
    rw [List.Nodup, List.pairwise_map] at hnd
    rw [← hl]
    refine (hnd.sublist List.filter_sublist).imp_of_mem ?_
    intro a b ha hb hne hk
    apply hne
    obtain ⟨a1, a2⟩ := (pairs_sel hf).1 (List.mem_map_of_mem (List.mem_of_mem_filter ha))
    obtain ⟨b1, b2⟩ := (pairs_sel hf).1 (List.mem_map_of_mem (List.mem_of_mem_filter hb))
    refine ht _ _ ⟨by simp, by simpa [IsSel] using a1⟩ ⟨by simp, by simpa [IsSel] using b1⟩ a2 b2 ?_
    rw [key_eq a1.2, key_eq b1.2] at hk
    simpa using hk
  obtain ⟨b1, b2⟩ := build_lookup l (BitsetBSD.rowsWhere df.nrows mask true) (BitsetBSD.rowsWhere df.nrows mask false) (o.pos, o.neg) hpw
  have hc : ∀ s i, Covers df [s] i ↔ MatchesAt df s i := fun s i => by simp [Covers]
  have hbits : ∀ rows s, bitsFor df rows [s] = rows.map (fun i => decide (MatchesAt df s i)) := by
    intro rows s
    unfold bitsFor
    apply List.map_congr_left; intro i _
    rw [decide_eq_decide]; exact hc s i
  unfold BitsetObj.build
  simp only [hm0, hl, fill_eq]
  refine ⟨_, rfl, ?_, ?_, ?_, ?_, rfl, rfl⟩
  · intro s hs
    obtain ⟨e, he, rfl⟩ := List.mem_map.1 ((pairs_sel hf).2 ⟨isSel_describes.2 (hF s hs).1, (hF s hs).2⟩)
    have hel : e ∈ l := by
      rw [← hl]
      exact List.mem_filter.2 ⟨he, List.any_eq_true.2 ⟨_, hs, (Selector.eq_iff_key _ _).2 rfl⟩⟩
    obtain ⟨c1, c2⟩ := b1 e hel
    rw [bitsOf_eq hf he] at c1 c2
    simp only [getitem, Key.text]
    rw [show (Pattern.new [itemSel e]).str = BitsetBSD.key (itemSel e) from rfl, c1, c2, rows_pos hm, rows_neg hm, hbits, hbits]
    exact ⟨rfl, rfl⟩
  · intro k hk
    cases htx : k.text with
    | error e => simp only [getitem, htx]; exact ⟨by trivial, by trivial⟩
    | ok t =>
      obtain ⟨c1, c2⟩ := b2 t (fun e he h => hk _ (hmem e he).2 (by rw [htx, h]; rfl))
      simp only [getitem, htx]
      rw [c1, c2]
      exact ⟨rfl, rfl⟩
  · simp only [BitsetObj.allTruePositives, rows_pos hm, List.map_const']
  · simp only [BitsetObj.allTrueNegatives, rows_neg hm, List.map_const']
end

open FitArgs in
/-- C99: with arguments of any type, `build_bitset` gets past its checks exactly for a data frame, a list, and a tuple of two whose first element names a column;
`generate_set_of_frequent_selectors` exactly for a data frame, such a tuple and a number. What is refused: wrong types with `TypeError`; a tuple of another length or without a text in front with
`ValueError`; an absent column with `KeyError` by the first method and `ValueError` by the second, which looks at the type of `min_support` only afterwards. -/
theorem C99_arguments (a t : Arg) (ok : Bool) (df : Frame) (n : Str) (v : FitArgs.Item) :
    (BitsetObj.buildEntry a ok t = .runs df n v ↔ a = .frame df ∧ ok = true ∧ t = .tuple [.str n, v] ∧ HasColumn df n) ∧
    (BitsetObj.frequentEntry a t ok = .runs df n v ↔ a = .frame df ∧ ok = true ∧ t = .tuple [.str n, v] ∧ HasColumn df n) ∧
    (BitsetObj.buildEntry (.frame df) true (.tuple [.str n, v]) = .refused .keyError false ↔ ¬ HasColumn df n) ∧
    (BitsetObj.frequentEntry (.frame df) (.tuple [.str n, v]) ok = .refused .valueError false ↔ ¬ HasColumn df n) ∧
    (BitsetObj.frequentEntry (.frame df) (.tuple [.str n, v]) false = .refused .typeError false ↔ HasColumn df n) ∧
    (BitsetObj.buildEntry a ok t = .refused .typeError false ↔ (∀ df, a ≠ .frame df) ∨ ok = false ∨ ∀ items, t ≠ .tuple items) ∧
    (∀ items, ok = true → (BitsetObj.buildEntry (.frame df) ok (.tuple items) = .refused .valueError false ↔ items.length ≠ 2 ∨ ∃ k w, items = [.scalar k, w])) := by
  have hcol : ∀ df m, HasColumn df m ↔ ∃ col, df.cols.lookup m = some col := fun df m => (lookup_some_iff _ _).symm
  refine ⟨?_, ?_, ?_, ?_, ?_, ?_, ?_⟩
  · cases a with
    | tuple _ => simp [BitsetObj.buildEntry]
    | other _ => simp [BitsetObj.buildEntry]
    | frame d =>
      cases ok with
      | false => simp [BitsetObj.buildEntry]
      | true =>
        cases t with
        | frame _ => simp [BitsetObj.buildEntry]
        | other _ => simp [BitsetObj.buildEntry]
        | tuple items =>
          simp only [BitsetObj.buildEntry, Bool.not_true, Bool.false_eq_true, if_false, ite_not]
          rcases items with _ | ⟨x, _ | ⟨y, _ | ⟨z, r⟩⟩⟩
          · simp
          · simp
          · simp only [List.length_cons, List.length_nil, if_true]
            cases x with
            | scalar k => simp
            | str m =>
              rw [lookup_runs, hcol]
              simp only [List.cons.injEq, Arg.tuple.injEq, Arg.frame.injEq, FitArgs.Item.str.injEq]
              constructor
              · rintro ⟨rfl, ⟨r, rfl, rfl, rfl⟩, h⟩; exact ⟨rfl, by trivial, ⟨rfl, rfl, by trivial⟩, h⟩
              · rintro ⟨rfl, _, ⟨rfl, rfl, _⟩, h⟩; exact ⟨rfl, ⟨[], rfl, rfl, rfl⟩, h⟩
          · simp
  · cases a with
    | tuple _ => simp [BitsetObj.frequentEntry]
    | other _ => simp [BitsetObj.frequentEntry]
    | frame d =>
      cases t with
      | frame _ => simp [BitsetObj.frequentEntry]
      | other _ => simp [BitsetObj.frequentEntry]
      | tuple items =>
        simp only [BitsetObj.frequentEntry, ite_not]
        rcases items with _ | ⟨x, _ | ⟨y, _ | ⟨z, r⟩⟩⟩
        · simp
        · simp
        · simp only [List.length_cons, List.length_nil, if_true]
          cases x with
          | scalar k => simp
          | str m =>
            simp only [column?]
            cases hl : d.cols.lookup m with
            | none =>
              simp only [reduceCtorEq, false_iff, not_and]
              rintro h1 - h2 h3
              cases h1; cases h2
              obtain ⟨col, hc⟩ := (hcol _ _).1 h3
              rw [hl] at hc; cases hc
            | some col =>
              cases ok with
              | false => simp
              | true =>
                simp only [Bool.not_true, Bool.false_eq_true, if_false]
                rw [lookup_runs, hcol]
                simp only [List.cons.injEq, Arg.tuple.injEq, Arg.frame.injEq, FitArgs.Item.str.injEq]
                constructor
                · rintro ⟨rfl, ⟨r, rfl, rfl, rfl⟩, h⟩; exact ⟨rfl, by trivial, ⟨rfl, rfl, by trivial⟩, h⟩
                · rintro ⟨rfl, _, ⟨rfl, rfl, _⟩, h⟩; exact ⟨rfl, ⟨[], rfl, rfl, rfl⟩, h⟩
        · simp
  · simp only [BitsetObj.buildEntry, lookupTarget, column?, hcol]
    cases hl : df.cols.lookup n <;> simp
  · simp only [BitsetObj.frequentEntry, lookupTarget, column?, hcol]
    cases hl : df.cols.lookup n <;> cases ok <;> simp
  · simp only [BitsetObj.frequentEntry, lookupTarget, column?, hcol]
    cases hl : df.cols.lookup n <;> simp
  · cases a with
    | tuple _ => simp [BitsetObj.buildEntry]
    | other _ => simp [BitsetObj.buildEntry]
    | frame d =>
      cases ok with
      | false => simp [BitsetObj.buildEntry]
      | true =>
        cases t with
        | frame _ => simp [BitsetObj.buildEntry]
        | other _ => simp [BitsetObj.buildEntry]
        | tuple items =>
          simp only [BitsetObj.buildEntry, Bool.not_true, Bool.false_eq_true, if_false, ite_not]
          rcases items with _ | ⟨x, _ | ⟨y, _ | ⟨z, r⟩⟩⟩
          · simp
          · simp
          · cases x with
            | scalar k => simp
            | str m =>
              simp only [lookupTarget, column?]
              cases hl : d.cols.lookup m <;> simp
          · simp
  · intro items hok
    subst hok
    simp only [BitsetObj.buildEntry, Bool.not_true, Bool.false_eq_true, if_false, ite_not]
    rcases items with _ | ⟨x, _ | ⟨y, _ | ⟨z, r⟩⟩⟩
    · simp
    · simp
    · cases x with
      | scalar k => simp
      | str m =>
        simp only [lookupTarget, column?]
        cases hl : df.cols.lookup m <;> simp
    · simp

/-- C99: so a second `build_bitset` on one object leaves entries of the first data set behind: here a selector that does not occur in the second data (four rows) still has its bits of the first (two rows) -/
theorem C99_stale : ∃ (df df' : Frame) (s s' : Selector) (o o' : BitsetObj),
    BitsetObj.new.build df (c!"t", c!"y") [s] = .ok o ∧ o.build df' (c!"t", c!"y") [s'] = .ok o' ∧
    getitem o'.pos (.sel s) = .ok [true] ∧ getitem o'.pos (.sel s') = .ok [true, false, true] ∧ o'.allTruePositives = .ok [true, true, true] := by
  refine ⟨⟨2, [(c!"a", [.str c!"x", .str c!"x"]), (c!"t", [.str c!"y", .str c!"n"])]⟩,
    ⟨4, [(c!"a", [.str c!"u", .str c!"u", .str c!"v", .str c!"u"]), (c!"t", [.str c!"y", .str c!"n", .str c!"y", .str c!"y"])]⟩, ⟨c!"a", .equal, .str c!"x"⟩, ⟨c!"a", .equal, .str c!"u"⟩,
    ⟨[(c!"[a = 'x']", [true])], [(c!"[a = 'x']", [true])], some 1, some 1⟩,
    ⟨[(c!"[a = 'x']", [true]), (c!"[a = 'u']", [true, false, true])], [(c!"[a = 'x']", [true]), (c!"[a = 'u']", [true])], some 3, some 1⟩, ?_, ?_, by decide +kernel, by decide +kernel, by decide +kernel⟩
  all_goals decide +kernel

theorem no_comma {t : Str} (h : ',' ∉ t) : ¬ Occurs c!", " t := by
  rintro ⟨a, b, rfl⟩
  exact h (by simp)

/-- the conditions of `C99_map` and `C99_iter` are met by a history with a selector, a pattern and two refused assignments -/
example : (∀ e ∈ storedBy [(.sel ⟨c!"a", .equal, .str c!"x"⟩, .bits [true]), (.other 0, .bits [true]), (.pat (Pattern.new [⟨c!"a", .equal, .str c!"x"⟩, ⟨c!"b", .less, .int 3⟩]), .bits [false]),
      (.sel ⟨c!"b", .less, .int 3⟩, .other 0), (.pat (Pattern.new [⟨c!"a", .equal, .str c!"x"⟩]), .bits [false, true])], ∀ s ∈ e.1, KeyPlain s ∧ TextSafe s) := by
  have : storedBy [(.sel ⟨c!"a", .equal, .str c!"x"⟩, .bits [true]), (.other 0, .bits [true]), (.pat (Pattern.new [⟨c!"a", .equal, .str c!"x"⟩, ⟨c!"b", .less, .int 3⟩]), .bits [false]),
      (.sel ⟨c!"b", .less, .int 3⟩, .other 0), (.pat (Pattern.new [⟨c!"a", .equal, .str c!"x"⟩]), .bits [false, true])] =
      [([⟨c!"a", .equal, .str c!"x"⟩], [true]), ([⟨c!"a", .equal, .str c!"x"⟩, ⟨c!"b", .less, .int 3⟩], [false]), ([⟨c!"a", .equal, .str c!"x"⟩], [false, true])] := by decide +kernel
  rw [this]
  have h1 : ¬ Occurs c!", " (⟨c!"a", .equal, .str c!"x"⟩ : Selector).str := no_comma (by decide +kernel)
  have h2 : ¬ Occurs c!", " (⟨c!"b", .less, .int 3⟩ : Selector).str := no_comma (by decide +kernel)
  simp only [List.mem_cons, List.not_mem_nil, or_false]
  rintro e (rfl | rfl | rfl) s hs <;> simp only [List.mem_cons, List.not_mem_nil, or_false] at hs
  · subst hs; exact ⟨⟨by decide, h1⟩, rfl, by decide, by intro f h; cases h⟩
  · rcases hs with rfl | rfl
    · exact ⟨⟨by decide, h1⟩, rfl, by decide, by intro f h; cases h⟩
    · exact ⟨⟨by decide, h2⟩, rfl, by decide, by intro f h; cases h⟩
  · subst hs; exact ⟨⟨by decide, h1⟩, rfl, by decide, by intro f h; cases h⟩

/-- the conditions of `C99_build` are met by the demonstration data and one of its selectors -/
example : NominalFrame demoFrame (c!"t", c!"yes") ∧ TextsFaithful demoFrame (c!"t", c!"yes") ∧
    ∀ s ∈ [(⟨c!"a", .equal, .str c!"x"⟩ : Selector)], Describes (c!"t", c!"yes") [s] ∧ OccursIn demoFrame [s] := by
  refine ⟨demoFrame_ok, demoFrame_texts, ?_⟩
  intro s hs
  rw [List.mem_singleton] at hs
  subst hs
  refine ⟨⟨by simp, ?_⟩, 0, by decide, ?_⟩
  · intro t ht
    rw [List.mem_singleton] at ht; subst ht
    exact ⟨by decide, rfl, _, rfl⟩
  · intro t ht
    rw [List.mem_singleton] at ht; subst ht
    exact ⟨_, _, rfl, rfl, by decide +kernel⟩

end Verif

import Verif.Lemmas.RelabelSDIGA
import Verif.Props.Relabel
import Verif.Props.QFinder
/-! Lemmas for C97: QFinder on data with other names. -/
namespace Verif
open Spec

/-- the entry with other names -/
def Spec.renameEntry (ρ : Str → Str) (ν : Str → Str → Str) (e : QFEntry) : QFEntry := ⟨renamePattern ρ ν e.pat, e.cred⟩

/-! ### selection and ranking -/

theorem sortedInsert_map {α β : Type} {le : α → α → Bool} {le' : β → β → Bool} {g : α → β} (h : ∀ a b, le' (g a) (g b) = le a b) (a : α) (l : List α) :
    sortedInsert le' (g a) (l.map g) = (sortedInsert le a l).map g := by
  induction l with
  | nil => rfl
  | cons b l ih =>
    simp only [sortedInsert, List.map_cons, h]
    split
    · rfl
    · rw [ih]; rfl

theorem stableSort_map {α β : Type} {le : α → α → Bool} {le' : β → β → Bool} {g : α → β} (h : ∀ a b, le' (g a) (g b) = le a b) (l : List α) :
    stableSort le' (l.map g) = (stableSort le l).map g := by
  unfold stableSort
  induction l with
  | nil => rfl
  | cons a l ih => rw [List.map_cons, List.foldr_cons, List.foldr_cons, ih, sortedInsert_map h]

theorem erase_map_on {α β : Type} [DecidableEq α] [DecidableEq β] {g : α → β} {a : α} {l : List α} (h : ∀ b ∈ l, g b = g a → b = a) : (l.map g).erase (g a) = (l.erase a).map g := by
  induction l with
  | nil => rfl
  | cons b l ih =>
    rw [List.map_cons, List.erase_cons, List.erase_cons]
    by_cases hb : b = a
    · subst hb; simp
    · have : g b ≠ g a := fun e => hb (h b (by simp) e)
      rw [if_neg (by simpa using this), if_neg (by simpa using hb), ih (fun c hc => h c (by simp [hc]))]
      rfl

namespace QFinder
open IDSD (redundant)

/-- `g` changes the patterns of the entries in `Q`, but not what the selection looks at -/
structure Keeps (Q : QFEntry → Prop) (g : QFEntry → QFEntry) : Prop where
  cred : ∀ e, (g e).cred = e.cred
  inj : ∀ a b, Q a → Q b → g a = g b → a = b
  len : ∀ a, Q a → (g a).pat.len = a.pat.len
  red : ∀ a b, Q a → Q b → redundant (g a).pat (g b).pat = redundant a.pat b.pat

variable {Q : QFEntry → Prop} {g : QFEntry → QFEntry} {cfg : QFConfig}

theorem rankPatterns_map (h : Keeps Q g) (l : List QFEntry) : rankPatterns cfg (l.map g) = (rankPatterns cfg l).map g := by
  unfold rankPatterns
  simp only
  rw [stableSort_map (le := fun a b : QFEntry => !(b.cred.pval.lt a.cred.pval)) (fun a b => by rw [h.cred, h.cred]),
    stableSort_map (le := fun a b : QFEntry => decide (rank (criteria cfg b.cred) ≤ rank (criteria cfg a.cred))) (fun a b => by rw [h.cred, h.cred])]

theorem removeFrom_map (h : Keeps Q g) {c c' : QFEntry → Bool} (n : Nat) : ∀ (i : Nat) (l : List QFEntry), (∀ e ∈ l, Q e) → (∀ e ∈ l, c' (g e) = c e) →
    removeFrom c' n i (l.map g) = (removeFrom c n i l).map g := by
  induction n with
  | zero => intro i l _ _; rfl
  | succ n ih =>
    intro i l hQ hc
    unfold removeFrom
    rw [List.getElem?_map]
    cases hi : l[i]? with
    | none => rfl
    | some t =>
      have ht : t ∈ l := List.mem_of_getElem? hi
      simp only [Option.map_some]
      rw [hc t ht]
      split
      · rw [erase_map_on (fun b hb he => h.inj _ _ (hQ b hb) (hQ t ht) he)]
        exact ih _ _ (fun e he => hQ e (List.mem_of_mem_erase he)) (fun e he => hc e (List.mem_of_mem_erase he))
      · exact ih _ _ hQ hc

theorem removeFrom_subset (c : QFEntry → Bool) (n : Nat) : ∀ (i : Nat) (l : List QFEntry), ∀ e ∈ removeFrom c n i l, e ∈ l := by
  induction n with
  | zero => intro i l e he; exact he
  | succ n ih =>
    intro i l e he
    unfold removeFrom at he
    split at he
    · split at he
      · exact List.mem_of_mem_erase (ih _ _ e he)
      · exact ih _ _ e he
    · exact he

theorem firstMax_map (h : Keeps Q g) (ts : List QFEntry) : ∀ t, firstMax (g t) (ts.map g) = g (firstMax t ts) := by
  unfold firstMax
  induction ts with
  | nil => intro t; rfl
  | cons x ts ih =>
    intro t
    rw [List.map_cons, List.foldl_cons, List.foldl_cons, h.cred, h.cred]
    split
    · exact ih x
    · exact ih t

theorem firstMax_mem (ts : List QFEntry) : ∀ t, firstMax t ts ∈ t :: ts := by
  unfold firstMax
  induction ts with
  | nil => intro t; simp
  | cons x ts ih =>
    intro t
    rw [List.foldl_cons]
    split
    · exact List.mem_cons_of_mem _ (ih x)
    · rcases List.mem_cons.1 (ih t) with e | e
      · rw [e]; simp
      · simp [e]

theorem dropMax_map (h : Keeps Q g) {l : List QFEntry} (hQ : ∀ e ∈ l, Q e) : dropMax (l.map g) = (dropMax l).map g := by
  cases l with
  | nil => rfl
  | cons t ts =>
    have hm := firstMax_mem ts t
    show (g t :: ts.map g).erase (firstMax (g t) (ts.map g)) = ((t :: ts).erase (firstMax t ts)).map g
    rw [firstMax_map h]
    exact erase_map_on (l := t :: ts) (fun b hb he => h.inj _ _ (hQ b hb) (hQ _ hm) he)

theorem dropMax_subset (l : List QFEntry) : ∀ e ∈ dropMax l, e ∈ l := by
  cases l with
  | nil => intro e he; exact he
  | cons t ts => intro e he; exact List.mem_of_mem_erase he

theorem consider_map (h : Keeps Q g) {top : List QFEntry} {e : QFEntry} (hQ : ∀ e ∈ top, Q e) (he : Q e) :
    consider cfg (top.map g) (g e) = (consider cfg top e).map g ∧ ∀ t ∈ consider cfg top e, Q t := by
  have h1 : rejected cfg (top.map g) (g e) = rejected cfg top e := by
    unfold rejected
    rw [List.any_map, Bool.eq_iff_iff, List.any_eq_true, List.any_eq_true]
    refine exists_congr (fun t => and_congr_right (fun ht => ?_))
    simp only [Function.comp_apply, h.red e t he (hQ t ht), h.len e he, h.len t (hQ t ht), h.cred]
  have h2 : removeLoop (replaces cfg (g e)) (top.map g) = (removeLoop (replaces cfg e) top).map g := by
    unfold removeLoop
    rw [List.length_map]
    refine removeFrom_map h _ _ _ hQ (fun t ht => ?_)
    unfold replaces
    rw [h.red e t he (hQ t ht), h.len e he, h.len t (hQ t ht), h.cred, h.cred]
  have h3 : ∀ t ∈ removeLoop (replaces cfg e) top ++ [e], Q t := by
    intro t ht
    rcases List.mem_append.1 ht with ht | ht
    · exact hQ t (removeFrom_subset _ _ _ _ t ht)
    · rw [List.mem_singleton.1 ht]; exact he
  unfold consider
  simp only
  rw [h1, h2]
  have h4 : (removeLoop (replaces cfg e) top).map g ++ [g e] = (removeLoop (replaces cfg e) top ++ [e]).map g := by simp
  rw [h4, List.length_map]
  split
  · exact ⟨rfl, hQ⟩
  · split
    · exact ⟨dropMax_map h h3, fun t ht => h3 t (dropMax_subset _ t ht)⟩
    · exact ⟨rfl, h3⟩

theorem leave_map (h : Keeps Q g) (n : Int) (top : List QFEntry) (e : QFEntry) : leave n (top.map g) (g e) = leave n top e := by
  unfold leave
  rw [List.length_map]
  split
  · cases top with
    | nil => rfl
    | cons t ts =>
      simp only [List.map_cons]
      have : maxP (g t) (ts.map g) = maxP t ts := by
        unfold maxP
        rw [List.foldl_map, h.cred]
        congr 1
        funext m x
        rw [h.cred]
      rw [this, h.cred]
  · rfl

theorem lengthLoop_map (h : Keeps Q g) (l : List QFEntry) : ∀ top : List QFEntry, (∀ e ∈ l, Q e) → (∀ e ∈ top, Q e) →
    lengthLoop cfg (l.map g) (top.map g) = (lengthLoop cfg l top).map (List.map g) ∧ ∀ r, lengthLoop cfg l top = .ok r → ∀ e ∈ r, Q e := by
  induction l with
  | nil => intro top _ ht; exact ⟨rfl, fun r hr => by cases hr; exact ht⟩
  | cons e l ih =>
    intro top hl ht
    rw [List.map_cons]
    unfold lengthLoop
    rw [leave_map h]
    cases leave cfg.num top e with
    | error err => exact ⟨rfl, fun r hr => by cases hr⟩
    | ok b =>
      cases b with
      | true => exact ⟨rfl, fun r hr => by cases hr; exact ht⟩
      | false =>
        simp only
        obtain ⟨c1, c2⟩ := consider_map (cfg := cfg) h ht (hl e (by simp))
        rw [c1]
        exact ih _ (fun x hx => hl x (by simp [hx])) c2

theorem filter_len_map (h : Keeps Q g) {E : List QFEntry} (hE : ∀ e ∈ E, Q e) (n : Nat) :
    (E.map g).filter (fun e => decide (e.pat.len = n)) = (E.filter (fun e => decide (e.pat.len = n))).map g := by
  rw [List.filter_map]
  congr 1
  apply List.filter_congr
  intro e he
  simp only [Function.comp_apply, h.len e (hE e he)]

theorem lengthsLoop_map (h : Keeps Q g) {E : List QFEntry} (hE : ∀ e ∈ E, Q e) (ns : List Nat) : ∀ top : List QFEntry, (∀ e ∈ top, Q e) →
    lengthsLoop cfg (E.map g) ns (top.map g) = (lengthsLoop cfg E ns top).map (List.map g) := by
  induction ns with
  | nil => intro top _; rfl
  | cons n ns ih =>
    intro top ht
    unfold lengthsLoop
    obtain ⟨c1, c2⟩ := lengthLoop_map (cfg := cfg) h (E.filter (fun e => decide (e.pat.len = n))) top (fun e he => hE e (List.mem_filter.1 he).1) ht
    rw [filter_len_map h hE, c1]
    cases hr : lengthLoop cfg (E.filter (fun e => decide (e.pat.len = n))) top with
    | error err => rfl
    | ok r => exact ih r (c2 r hr)

theorem selectTopK_map (h : Keeps Q g) {E : List QFEntry} (hE : ∀ e ∈ E, Q e) : selectTopK cfg (E.map g) = (selectTopK cfg E).map (List.map g) := by
  unfold selectTopK
  have : (E.map g).map (·.pat.len) = E.map (·.pat.len) := by
    rw [List.map_map]
    exact List.map_congr_left (fun e he => h.len e (hE e he))
  rw [this]
  exact lengthsLoop_map h hE _ [] (by simp)

/-! ### the contribution does not depend on the order of the selectors -/

theorem pyMin_fin (a b : Rat) : (XF.fin a).pyMin (.fin b) = .fin (min a b) := by
  unfold XF.pyMin
  simp only [XF.lt, decide_eq_true_eq]
  split
  · rw [min_eq_right (le_of_lt ‹_›)]
  · rw [min_eq_left (not_lt.1 ‹_›)]

theorem pyMax_fin (a b : Rat) : (XF.fin a).pyMax (.fin b) = .fin (max a b) := by
  unfold XF.pyMax
  simp only [XF.lt, decide_eq_true_eq]
  split
  · rw [max_eq_right (le_of_lt ‹_›)]
  · rw [max_eq_left (not_lt.1 ‹_›)]

theorem pyMax_ninf (a : XF) : a.pyMax .ninf = a := by cases a <;> rfl
theorem pyMax_nan (a : XF) : a.pyMax .nan = a := by cases a <;> rfl

/-- the least of several values does not depend on their order (those that are not a number are skipped) -/
theorem pyMin_comm (m a b : XF) : (m.pyMin a).pyMin b = (m.pyMin b).pyMin a := by
  cases m <;> cases a <;> cases b <;> first
    | rfl
    | (simp only [pyMin_fin]; first | rfl | (rw [min_right_comm]))
    | (show XF.pyMin (.fin _) (.fin _) = XF.pyMin (.fin _) (.fin _); rw [pyMin_fin, pyMin_fin, min_comm])

theorem pyMax_comm (m a b : XF) : (m.pyMax a).pyMax b = (m.pyMax b).pyMax a := by
  cases m <;> cases a <;> cases b <;> first
    | rfl
    | (simp only [pyMax_fin, pyMax_ninf, pyMax_nan]; done)
    | (simp only [pyMax_fin]; first | rfl | (rw [max_right_comm]))
    | (show XF.pyMax (.fin _) (.fin _) = XF.pyMax (.fin _) (.fin _); rw [pyMax_fin, pyMax_fin, max_comm])

theorem loop_fold (o : Pattern → XF) (p : Pattern) (x : XF) (l : List Selector) : ∀ mn mx, SelectorContribution.loop (fun q => .ok (o q)) none p x l mn mx =
    .ok (.inr (((l.map (fun s => x.sub (o (p.copy.remove s)))).foldl XF.pyMin mn), ((l.map (fun s => x.sub (o (p.copy.remove s)))).foldl XF.pyMax mx))) := by
  induction l with
  | nil => intro mn mx; rfl
  | cons s l ih =>
    intro mn mx
    unfold SelectorContribution.loop
    simp only [Bool.false_eq_true, if_false]
    rw [ih]
    rfl

/-- two patterns of the same length whose contributions are the same, in any order -/
theorem compute_perm {o o' : Pattern → XF} {p p' : Pattern} (hl : p'.len = p.len) (h0 : o' p' = o p)
    (h : (p'.sels.map (fun s => o' (p'.copy.remove s))).Perm (p.sels.map (fun s => o (p.copy.remove s)))) :
    SelectorContribution.compute (fun q => .ok (o' q)) none p' = SelectorContribution.compute (fun q => .ok (o q)) none p := by
  unfold SelectorContribution.compute
  rw [hl]
  split
  · rfl
  · split
    · rfl
    · simp only
      rw [loop_fold, loop_fold, h0]
      have hp := h.map (fun v => (o p).sub v)
      rw [List.map_map, List.map_map] at hp
      have e1 : ∀ m, (p'.sels.map (fun s => (o p).sub (o' (p'.copy.remove s)))).foldl XF.pyMin m = (p.sels.map (fun s => (o p).sub (o (p.copy.remove s)))).foldl XF.pyMin m :=
        fun m => hp.foldl_eq' (fun x _ y _ z => pyMin_comm z x y) m
      have e2 : ∀ m, (p'.sels.map (fun s => (o p).sub (o' (p'.copy.remove s)))).foldl XF.pyMax m = (p.sels.map (fun s => (o p).sub (o (p.copy.remove s)))).foldl XF.pyMax m :=
        fun m => hp.foldl_eq' (fun x _ y _ z => pyMax_comm z x y) m
      simp only [e1, e2]

/-! ### the candidates -/

section
open Classical
variable {ρ : Str → Str} {ν : Str → Str → Str} {df : Frame} {target : Str × Str}

theorem combinations_map {α β : Type} (f : α → β) (n : Nat) (l : List α) : combinations n (l.map f) = (combinations n l).map (List.map f) := by
  induction l generalizing n with
  | nil => cases n <;> rfl
  | cons a l ih =>
    cases n with
    | zero => rfl
    | succ n => simp only [List.map_cons, combinations, ih, List.map_append, List.map_map]; rfl

theorem pyUnique_map {f : Val → Val} {l : List Val} (h : ∀ a ∈ l, ∀ b ∈ l, f a = f b → a = b) : pyUnique (l.map f) = (pyUnique l).map f := by
  unfold pyUnique
  rw [← List.map_reverse, List.map_reverse (l := l.reverse.dedup)]
  congr 1
  generalize hr : l.reverse = m
  have hm : ∀ a ∈ m, ∀ b ∈ m, f a = f b → a = b := by
    intro a ha b hb
    rw [← hr] at ha hb
    exact h a (List.mem_reverse.1 ha) b (List.mem_reverse.1 hb)
  clear hr h
  induction m with
  | nil => rfl
  | cons a m ih =>
    have hmem : f a ∈ m.map f ↔ a ∈ m := by
      rw [List.mem_map]
      constructor
      · rintro ⟨b, hb, he⟩
        exact hm b (by simp [hb]) a (by simp) he ▸ hb
      · exact fun ha => ⟨a, ha, rfl⟩
    have ih' := ih (fun x hx y hy => hm x (by simp [hx]) y (by simp [hy]))
    rw [List.map_cons]
    by_cases ha : a ∈ m
    · rw [List.dedup_cons_of_mem ha, List.dedup_cons_of_mem (hmem.2 ha), ih']
    · rw [List.dedup_cons_of_notMem ha, List.dedup_cons_of_notMem (fun hx => ha (hmem.1 hx)), ih', List.map_cons]

theorem otherCols_rename (hρ : Function.Injective ρ) : otherCols (renameFrame ρ ν df) (ρ target.1) = (otherCols df target.1).map (fun c => (ρ c.1, c.2.map (renameVal (ν c.1)))) := by
  unfold otherCols renameFrame
  simp only
  rw [List.filter_map]
  congr 1
  apply List.filter_congr
  intro c _
  simp only [Function.comp_apply]
  exact decide_eq_decide.2 (not_congr hρ.eq_iff)

theorem simples_rename (hρ : Function.Injective ρ) (hν : ∀ a, Function.Injective (ν a)) (hf : NominalFrame df target) {cats : Int} {ties : TieOrder}
    (hc : ∀ c ∈ df.cols, c.1 ≠ target.1 → (c.2.dedup.length : Int) ≤ cats ∨ cats = -1) :
    simples ties cats (renameFrame ρ ν df) (ρ target.1) = (simples ties cats df target.1).map (renameSel ρ ν) := by
  unfold simples
  rw [otherCols_rename hρ, List.flatMap_map, List.map_flatMap]
  apply List.flatMap_congr
  intro c hm
  rw [mem_otherCols] at hm
  have hu : pyUnique (c.2.map (renameVal (ν c.1))) = (pyUnique c.2).map (renameVal (ν c.1)) := pyUnique_map (renameVal_inj (hν c.1) (hf.texts c hm.1))
  have h1 : ((pyUnique c.2).length : Int) ≤ cats ∨ cats = -1 := by rw [pyUnique_dedup]; exact hc c hm.1 hm.2
  unfold simpleOf
  simp only
  rw [hu, List.length_map, if_pos h1, if_pos h1, List.map_map, List.map_map]
  rfl

theorem candSets_rename (hρ : Function.Injective ρ) (hν : ∀ a, Function.Injective (ν a)) (hf : NominalFrame df target) {cfg : QFConfig}
    (hc : ∀ c ∈ df.cols, c.1 ≠ target.1 → (c.2.dedup.length : Int) ≤ cfg.cats ∨ cfg.cats = -1) :
    candSets cfg (renameFrame ρ ν df) (ρ target.1) = (candSets cfg df target.1).map (List.map (renameSel ρ ν)) := by
  unfold candSets
  rw [simples_rename hρ hν hf hc, otherCols_rename hρ, List.length_map, List.map_append, List.map_map, List.map_map, List.map_flatMap]
  congr 1
  apply List.flatMap_congr
  intro n _
  rw [combinations_map, List.filter_map]
  congr 1
  apply List.filter_congr
  intro X _
  simp only [Function.comp_apply, List.map_map]
  have : (fun s => s.attr) ∘ renameSel ρ ν = ρ ∘ (fun s : Selector => s.attr) := rfl
  rw [this, ← List.map_map]
  exact decide_eq_decide.2 (List.nodup_map_iff hρ)

theorem candSets_text (hf : NominalFrame df target) {cfg : QFConfig} {X : List Selector} (hX : X ∈ candSets cfg df target.1) : ∀ s ∈ X, TextEq s := by
  rw [mem_candSets] at hX
  exact fun s hs => (simples_inCols hf cfg.cats (hX.2.1.subset hs)).1.2

theorem occurring_rename (hρ : Function.Injective ρ) (hν : ∀ a, Function.Injective (ν a)) (hf : NominalFrame df target) {cfg : QFConfig}
    (hc : ∀ c ∈ df.cols, c.1 ≠ target.1 → (c.2.dedup.length : Int) ≤ cfg.cats ∨ cfg.cats = -1) :
    occurring (renameFrame ρ ν df) (candidates cfg (renameFrame ρ ν df) (ρ target.1)) = (occurring df (candidates cfg df target.1)).map (renamePattern ρ ν) := by
  have hR := renameFrame_relabelled hρ hν hf
  have e1 := candidates_eq (relabel_nominal hR hf) cfg
  have e2 : (renameTarget ρ ν target).1 = ρ target.1 := rfl
  rw [e2] at e1
  rw [e1, candSets_rename hρ hν hf hc, candidates_eq hf, List.map_map]
  have e3 : ∀ X ∈ candSets cfg df target.1, (Pattern.new ∘ List.map (renameSel ρ ν)) X = (renamePattern ρ ν ∘ Pattern.new) X := fun X hX => SDIGA.new_rename (candSets_text hf hX)
  rw [List.map_congr_left e3, ← List.map_map]
  unfold occurring
  rw [List.filter_map]
  congr 1
  apply List.filter_congr
  intro p hp
  obtain ⟨X, hX, rfl⟩ := List.mem_map.1 hp
  have ht := candSets_text hf hX
  have hn : ∀ s ∈ (Pattern.new X).sels, TextEq s := fun s hs => ht s (((new_text ht).2 s).1 hs)
  simp only [Function.comp_apply]
  exact decide_eq_decide.2 (ren_occurs hR hf hn)

/-! ### credibility -/

theorem rowBits_rename (hρ : Function.Injective ρ) (hν : ∀ a, Function.Injective (ν a)) (hf : NominalFrame df target) {X Y : List Selector} (hX : ∀ s ∈ X, TextEq s)
    (hY : ∀ t, t ∈ Y ↔ ∃ s ∈ X, renameSel ρ ν s = t) : rowBits (renameFrame ρ ν df) Y = rowBits df X := by
  have hR := renameFrame_relabelled hρ hν hf
  unfold rowBits
  have : (renameFrame ρ ν df).nrows = df.nrows := rfl
  rw [this]
  apply List.map_congr_left
  intro i hi
  rw [decide_eq_decide, ← ren_covers hR hf hX (List.getElem?_range (List.mem_range.1 hi))]
  unfold Covers
  constructor
  · exact fun h s hs => h s ((hY s).2 ((mem_ren hX s).1 hs))
  · exact fun h s hs => h s ((mem_ren hX s).2 ((hY s).1 hs))

theorem targetBits_rename (hρ : Function.Injective ρ) (hν : ∀ a, Function.Injective (ν a)) (hf : NominalFrame df target) :
    rowBits (renameFrame ρ ν df) [targetSel (renameTarget ρ ν target)] = rowBits df [targetSel target] :=
  rowBits_rename hρ hν hf (by intro s hs; rw [List.mem_singleton.1 hs]; exact target_text) (fun t => by
    rw [List.mem_singleton]
    constructor
    · rintro rfl; exact ⟨targetSel target, by simp, rfl⟩
    · rintro ⟨s, hs, rfl⟩; rw [List.mem_singleton.1 hs]; rfl)

theorem glmOdds_rename (hρ : Function.Injective ρ) (hν : ∀ a, Function.Injective (ν a)) (hf : NominalFrame df target) (cfg : QFConfig) {X Y : List Selector} (hX : ∀ s ∈ X, TextEq s)
    (hY : ∀ t, t ∈ Y ↔ ∃ s ∈ X, renameSel ρ ν s = t) : glmOddsOf cfg (renameFrame ρ ν df) (renameTarget ρ ν target) Y = glmOddsOf cfg df target X ∧
      glmPOf cfg (renameFrame ρ ν df) (renameTarget ρ ν target) Y = glmPOf cfg df target X := by
  unfold glmOddsOf glmPOf
  rw [rowBits_rename hρ hν hf hX hY, targetBits_rename hρ hν hf]
  exact ⟨rfl, rfl⟩

/-- a renamed pattern has the renamed selectors, in the order of the new names -/
theorem rename_perm (hρ : Function.Injective ρ) (hν : ∀ a, Function.Injective (ν a)) {p : Pattern} (hs : Pattern.Sorted p.sels) (ht : ∀ s ∈ p.sels, TextEq s) :
    (renamePattern ρ ν p).sels.Perm (p.sels.map (renameSel ρ ν)) := by
  have h1 : p.sels.Nodup := ((sorted_iff_lt ht).2 hs).imp (fun {a b} h he => by subst he; exact absurd h (by simp [Selector.lt_irrefl]))
  have h2 : (renamePattern ρ ν p).sels.Nodup := (ren_sorted ht).imp (fun {a b} h he => by subst he; exact absurd h (by simp [Selector.lt_irrefl]))
  refine (List.perm_ext_iff_of_nodup h2 (h1.map_on (fun a ha b hb he => rename_inj hρ hν (ht a ha) (ht b hb) he))).2 (fun t => ?_)
  rw [List.mem_map]
  exact mem_ren ht t

theorem contrib_rename (hρ : Function.Injective ρ) (hν : ∀ a, Function.Injective (ν a)) (hf : NominalFrame df target) (cfg : QFConfig) {p : Pattern} (hs : Pattern.Sorted p.sels)
    (ht : ∀ s ∈ p.sels, TextEq s) : glmContribOf cfg (renameFrame ρ ν df) (renameTarget ρ ν target) (renamePattern ρ ν p) = glmContribOf cfg df target p := by
  have hp := rename_perm hρ hν hs ht
  have hs' : Pattern.Sorted (renamePattern ρ ν p).sels := (sorted_iff_lt (ren_text ht)).1 (ren_sorted ht)
  unfold glmContribOf
  rw [compute_perm (o' := fun q => glmOddsOf cfg (renameFrame ρ ν df) (renameTarget ρ ν target) q.sels) (o := fun q => glmOddsOf cfg df target q.sels) (p' := renamePattern ρ ν p) (p := p)]
  · have := hp.length_eq
    rw [List.length_map] at this
    exact this
  · exact (glmOdds_rename hρ hν hf cfg ht (fun t => mem_ren ht t)).1
  · refine (hp.map _).trans ?_
    rw [List.map_map]
    refine List.Perm.of_eq (List.map_congr_left (fun s hsp => ?_))
    simp only [Function.comp_apply]
    obtain ⟨_, r1⟩ := remove_text hs ht hsp
    obtain ⟨_, r2⟩ := remove_text hs' (ren_text ht) (s := renameSel ρ ν s) ((mem_ren ht _).2 ⟨s, hsp, rfl⟩)
    refine (glmOdds_rename hρ hν hf cfg (fun t h => ht t ((r1 t).1 h).1) (fun t => ?_)).1
    rw [r2]
    constructor
    · rintro ⟨h1, h2⟩
      obtain ⟨u, hu, rfl⟩ := (mem_ren ht t).1 h1
      exact ⟨u, (r1 u).2 ⟨hu, fun e => h2 (by rw [e])⟩, rfl⟩
    · rintro ⟨u, hu, rfl⟩
      obtain ⟨h1, h2⟩ := (r1 u).1 hu
      exact ⟨(mem_ren ht _).2 ⟨u, h1, rfl⟩, fun e => h2 (rename_inj hρ hν (ht u h1) (ht s hsp) e)⟩

theorem qfEntry_rename (hρ : Function.Injective ρ) (hν : ∀ a, Function.Injective (ν a)) (hf : NominalFrame df target) (cfg : QFConfig) (n : Nat) {p : Pattern}
    (hs : Pattern.Sorted p.sels) (ht : ∀ s ∈ p.sels, TextEq s) :
    qfEntryOf cfg (renameFrame ρ ν df) (renameTarget ρ ν target) n (renamePattern ρ ν p) = renameEntry ρ ν (qfEntryOf cfg df target n p) := by
  have hR := renameFrame_relabelled hρ hν hf
  obtain ⟨g1, g2⟩ := glmOdds_rename hρ hν hf cfg ht (fun t => mem_ren ht t)
  have g1' : glmOddsOf cfg (renameFrame ρ ν df) (renameTarget ρ ν target) (renamePattern ρ ν p).sels = glmOddsOf cfg df target p.sels := g1
  have g2' : glmPOf cfg (renameFrame ρ ν df) (renameTarget ρ ν target) (renamePattern ρ ν p).sels = glmPOf cfg df target p.sels := g2
  have g3 : covOf (renameFrame ρ ν df) (renameTarget ρ ν target) (renamePattern ρ ν p).sels = covOf df target p.sels := by
    unfold covOf
    have a := ren_tp hR hf ht
    have b := ren_fp hR hf ht
    rw [one_mul] at a b
    have a' : tpOf (renameFrame ρ ν df) (renameTarget ρ ν target) (renamePattern ρ ν p).sels = _ := a
    have b' : fpOf (renameFrame ρ ν df) (renameTarget ρ ν target) (renamePattern ρ ν p).sels = _ := b
    rw [a', b']
    rfl
  unfold qfEntryOf renameEntry
  rw [g1', g2', g3, contrib_rename hρ hν hf cfg hs ht]

/-- entries of patterns with sorted selectors on texts -/
def Plain (e : QFEntry) : Prop := Pattern.Sorted e.pat.sels ∧ ∀ s ∈ e.pat.sels, TextEq s

theorem keeps_rename (hρ : Function.Injective ρ) (hν : ∀ a, Function.Injective (ν a)) : Keeps Plain (renameEntry ρ ν) where
  cred := fun _ => rfl
  inj := by
    rintro ⟨⟨x⟩, c⟩ ⟨⟨y⟩, d⟩ ⟨s1, t1⟩ ⟨s2, t2⟩ h
    simp only [renameEntry, QFEntry.mk.injEq] at h
    obtain ⟨h1, rfl⟩ := h
    have hp1 := rename_perm hρ hν s1 t1
    have hp2 := rename_perm hρ hν s2 t2
    rw [h1] at hp1
    have : x = y := by
      refine sorted_ext s1 s2 t1 (fun s => ⟨fun hs => ?_, fun hs => ?_⟩)
      · have : renameSel ρ ν s ∈ y.map (renameSel ρ ν) := hp2.mem_iff.1 (hp1.mem_iff.2 (List.mem_map_of_mem hs))
        obtain ⟨t, ht, e⟩ := List.mem_map.1 this
        rw [← rename_inj hρ hν (t2 t ht) (t1 s hs) e]; exact ht
      · have : renameSel ρ ν s ∈ x.map (renameSel ρ ν) := hp1.mem_iff.1 (hp2.mem_iff.2 (List.mem_map_of_mem hs))
        obtain ⟨t, ht, e⟩ := List.mem_map.1 this
        rw [← rename_inj hρ hν (t1 t ht) (t2 s hs) e]; exact ht
    rw [this]
  len := fun a h => by
    have := (rename_perm hρ hν h.1 h.2).length_eq
    rw [List.length_map] at this
    exact this
  red := fun a b ha hb => by
    unfold redundant renameEntry
    rw [SDIGA.renamePattern_refines hρ hν ha.2 hb.2, SDIGA.renamePattern_refines hρ hν hb.2 ha.2]
end
end QFinder
end Verif

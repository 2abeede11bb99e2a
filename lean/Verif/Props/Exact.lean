import Verif.Props.Subgroup
import Verif.Props.FPTreeNode
import Verif.Lemmas.SDMapStar
/-! Exact forms of C02, C03, C04, C06, C07, C08, C11 and C51: precisely when the property holds of the code, for all inputs and histories. -/
namespace Verif
open Spec

/-! ## C02 -/

theorem pool_keys (h : List PoolOp) : ((poolAfter h).map (·.1)).Nodup := by
  unfold poolAfter
  suffices ∀ (h : List PoolOp) (p : Selector.Pool), (p.map (·.1)).Nodup → ((h.foldl poolStep p).map (·.1)).Nodup from this h [] (by simp)
  intro h
  induction h with
  | nil => intro p hp; exact hp
  | cons o os ih =>
    intro p hp
    refine ih _ ?_
    cases o with
    | collect keep => exact hp.sublist (List.filter_sublist.map _)
    | construct a op v =>
      simp only [poolStep, Selector.new]
      by_cases hl : (!Selector.legal op v) = true
      · simp only [hl, if_true]; exact hp
      · simp only [hl, if_false, Bool.false_eq_true]
        cases hk : List.lookup (a ++ c!" " ++ op.str ++ c!" " ++ Selector.valText v) p with
        | some s => exact hp
        | none =>
          simp only [List.map_cons, List.nodup_cons]
          refine ⟨?_, hp⟩
          intro hm
          obtain ⟨e, he, hek⟩ := List.mem_map.1 hm
          have := List.lookup_eq_none_iff.1 hk e he
          rw [hek] at this
          simp at this

/-- **C02.** For all arguments and histories of constructions and garbage collections: a legal call returns a selector that prints as the one asked for, and it is the one asked for
exactly when no living selector with other fields prints the same. -/
theorem C02_exact (h : List PoolOp) (a : Str) (op : Op) (v : Val) (hl : Selector.legal op v = true) :
    ∃ s p', Selector.new (poolAfter h) a op v = .ok (s, p') ∧ s.str = (⟨a, op, v⟩ : Selector).str ∧
      (s = ⟨a, op, v⟩ ↔ ∀ e ∈ poolAfter h, e.2.str = (⟨a, op, v⟩ : Selector).str → e.2 = ⟨a, op, v⟩) := by
  have hinv := poolInv (Q := fun _ => True) h (fun _ _ => trivial)
  have heq : a ++ c!" " ++ op.str ++ c!" " ++ Selector.valText v = (⟨a, op, v⟩ : Selector).str := rfl
  unfold Selector.new
  simp only [hl, Bool.not_true, Bool.false_eq_true, if_false, heq]
  cases hk : List.lookup (⟨a, op, v⟩ : Selector).str (poolAfter h) with
  | some s =>
    obtain ⟨l1, l2, h1, -⟩ := List.lookup_eq_some_iff.1 hk
    have hm : ((⟨a, op, v⟩ : Selector).str, s) ∈ poolAfter h := by rw [h1]; simp
    refine ⟨s, _, rfl, ((hinv _ hm).1).symm, ?_, ?_⟩
    · rintro rfl e he hes
      have h2 := (hinv e he).1
      have h3 := (List.nodup_iff_injective_getElem.1 (pool_keys h))
      have : e = ((⟨a, op, v⟩ : Selector).str, ⟨a, op, v⟩) := by
        exact List.inj_on_of_nodup_map (pool_keys h) he hm (by simp only [h2, hes])
      rw [this]
    · intro hall
      exact hall _ hm ((hinv _ hm).1).symm
  | none =>
    refine ⟨⟨a, op, v⟩, _, rfl, rfl, fun _ e he hes => ?_, fun _ => rfl⟩
    have := List.lookup_eq_none_iff.1 hk e he
    rw [(hinv e he).1, hes] at this
    simp at this

/-- the living selectors after a history: those of the pool -/
example : poolAfter [.construct c!"a" .equal (.int 1), .construct c!"b" .less (.int 2), .collect (fun s => s.attr == c!"b")]
    = [(c!"b < 2", ⟨c!"b", .less, .int 2⟩)] := by decide +kernel

/-! ## C03 -/

/-- one of the values is an integer and the other a float -/
def Spec.MixedNumbers (s t : Selector) : Prop := ∃ z f, (s.val = .int z ∧ t.val = .flt f) ∨ (s.val = .flt f ∧ t.val = .int z)

/-- **C03.** For all pairs of equal selectors: they print the same, and have the same hash for every hash of texts, exactly when their values are not an integer and a float; then they are
the same selector. -/
theorem C03_exact (s t : Selector) (h : s.eq t = true) :
    (s.str = t.str ↔ ¬ MixedNumbers s t) ∧ ((∀ hashStr : Str → Int, s.hash hashStr = t.hash hashStr) ↔ ¬ MixedNumbers s t) ∧ (¬ MixedNumbers s t → s = t) := by
  have hsame : ¬ MixedNumbers s t → s = t := by
    intro hm
    exact (C03_sameKind (fun _ => 0) s t h (fun z f => ⟨fun hh => hm ⟨z, f, .inl hh⟩, fun hh => hm ⟨z, f, .inr hh⟩⟩)).1
  have hdiff : MixedNumbers s t → s.str ≠ t.str := by
    intro hm heq
    have ha : s.attr = t.attr ∧ s.op = t.op := by
      simp only [Selector.eq, Bool.and_eq_true, beq_iff_eq, Op.eq] at h
      exact ⟨h.1.1, Op.value_inj (by simpa using h.1.2)⟩
    unfold Selector.str at heq
    rw [ha.1, ha.2, List.append_cancel_left_eq] at heq
    have := Selector.valText_inj heq
    rcases hm with ⟨z, f, ⟨h1, h2⟩ | ⟨h1, h2⟩⟩ <;> rw [h1, h2] at this <;> cases this
  refine ⟨⟨fun h1 hm => hdiff hm h1, fun hm => by rw [hsame hm]⟩, ⟨fun h1 hm => ?_, fun hm hs => by rw [hsame hm]⟩, hsame⟩
  have := h1 (fun x => if x = s.str then 0 else 1)
  simp only [Selector.hash, if_true] at this
  rw [if_neg (fun hh => hdiff hm hh.symm)] at this
  cases this

example : MixedNumbers ⟨c!"a", .equal, .int 1⟩ ⟨c!"a", .equal, .flt (mkFlt 1 0)⟩ ∧
    Selector.eq ⟨c!"a", .equal, .int 1⟩ ⟨c!"a", .equal, .flt (mkFlt 1 0)⟩ = true := ⟨⟨1, _, .inl ⟨rfl, rfl⟩⟩, by decide +kernel⟩

/-! ## C04, C06, C07: typed columns -/

/-- the selectors that can be built when column `a` may be compared by `op` with a text (`T a op true`) or with a number (`T a op false`) -/
def Spec.Typed (T : Str → Op → Bool → Prop) (s : Selector) : Prop := Selector.legal s.op s.val = true ∧ T s.attr s.op s.val.isStr

/-- no column is compared both with texts and with numbers by the same operator (`=` or `!=`; the others are refused for texts) -/
def Spec.OneKind (T : Str → Op → Bool → Prop) : Prop := ∀ a op, op = .equal ∨ op = .notEqual → ¬ (T a op true ∧ T a op false)

theorem typed_homogeneous {T : Str → Op → Bool → Prop} (h : OneKind T) : Homogeneous (Typed T) := by
  rintro ⟨a1, o1, v1⟩ ⟨a2, o2, v2⟩ ⟨l1, t1⟩ ⟨l2, t2⟩ ha ho
  simp only at ha ho l1 t1 l2 t2 ⊢
  subst ha ho
  by_contra hne
  have hop : o1 = .equal ∨ o1 = .notEqual := by
    cases hv1 : v1.isStr <;> cases hv2 : v2.isStr <;> rw [hv1, hv2] at hne <;> simp at hne
    · cases o1 <;> simp [Selector.legal, hv2, bne] at l2 ⊢
    · cases o1 <;> simp [Selector.legal, hv1, bne] at l1 ⊢
  apply h a1 o1 hop
  cases hv1 : v1.isStr <;> cases hv2 : v2.isStr <;> rw [hv1, hv2] at hne <;> simp at hne
  · exact ⟨hv2 ▸ t2, hv1 ▸ t1⟩
  · exact ⟨hv1 ▸ t1, hv2 ▸ t2⟩

/-- a number and the text that spells it: different and not ordered -/
theorem five_facts (a : Str) (op : Op) :
    let x : Selector := ⟨a, op, .int 5⟩
    let y : Selector := ⟨a, op, .str c!"5"⟩
    x.lt y = false ∧ y.lt x = false ∧ x.eq y = false ∧ y.eq x = false ∧ x.ne y = true ∧ y.ne x = true ∧ x.gt y = false := by
  have h0 : op.ne op = false := by cases op <;> decide
  have h1 : strLt (intStr 5) c!"5" = false := by decide +kernel
  have h2 : strLt c!"5" (intStr 5) = false := by decide +kernel
  simp [Selector.lt, Selector.eq, Selector.ne, Selector.gt, h0, Val.eq, Val.lt?, Val.pyStr, h1, h2]

theorem pySort_two {α : Type} (lt : α → α → Bool) (x y : α) (h : lt y x = false) : pySort lt [x, y] = [x, y] := by
  simp [pySort, countRun, takeRun, h]

theorem five_new (a : Str) (op : Op) :
    (Pattern.new [⟨a, op, .int 5⟩, ⟨a, op, .str c!"5"⟩]).sels = [⟨a, op, .int 5⟩, ⟨a, op, .str c!"5"⟩] ∧
    (Pattern.new [⟨a, op, .str c!"5"⟩, ⟨a, op, .int 5⟩]).sels = [⟨a, op, .str c!"5"⟩, ⟨a, op, .int 5⟩] := by
  obtain ⟨h1, h2, -, -, h5, h6, -⟩ := five_facts a op
  constructor
  · simp [Pattern.new, pySort_two _ _ _ h2, Pattern.dedupLoop, h5]
  · simp [Pattern.new, pySort_two _ _ _ h1, Pattern.dedupLoop, h6]

theorem typed_five {T : Str → Op → Bool → Prop} {a : Str} {op : Op} (hop : op = .equal ∨ op = .notEqual) (h : T a op true ∧ T a op false) :
    Typed T ⟨a, op, .int 5⟩ ∧ Typed T ⟨a, op, .str c!"5"⟩ := by
  refine ⟨⟨by rfl, h.2⟩, ⟨?_, h.1⟩⟩
  rcases hop with rfl | rfl <;> rfl

/-- **C04.** For every typing of columns: the comparison methods are one total order on the selectors of these columns exactly when no column is compared both with texts and
numbers by the same operator. -/
theorem C04_exact (T : Str → Op → Bool → Prop) :
    TotalOrder (Typed T) Selector.eq Selector.ne Selector.lt Selector.gt Selector.le Selector.ge ↔ OneKind T := by
  refine ⟨fun h a op hop hT => ?_, fun h => C04_homogeneous _ (typed_homogeneous h)⟩
  obtain ⟨t1, t2⟩ := typed_five hop hT
  obtain ⟨h1, h2, h3, h4, -, -, h7⟩ := five_facts a op
  have := h.trichotomy _ _ t1 t2
  rw [h1, h3, h7] at this
  simp at this

/-- **C06.** For every typing of columns: all histories of patterns over these columns keep the selectors strictly increasing (hence distinct) exactly when no column is compared both
with texts and numbers by the same operator. -/
theorem C06_exact (T : Str → Op → Bool → Prop) :
    (∀ (init : List Selector) (ops : List PatOp), (∀ s ∈ mentioned init ops, Typed T s) →
      (patRun init ops).sels.Pairwise (fun a b => a.lt b = true ∧ a.eq b = false)) ↔ OneKind T := by
  refine ⟨fun h a op hop hT => ?_, fun h init ops hm => C06_homogeneous _ (typed_homogeneous h) init ops hm⟩
  obtain ⟨t1, t2⟩ := typed_five hop hT
  have := h [⟨a, op, .int 5⟩, ⟨a, op, .str c!"5"⟩] [] (by
    intro s hs
    simp [mentioned] at hs
    rcases hs with rfl | rfl
    · exact t1
    · exact t2)
  rw [show (patRun [⟨a, op, .int 5⟩, ⟨a, op, .str c!"5"⟩] []) = Pattern.new _ from rfl, (five_new a op).1] at this
  rw [List.pairwise_cons] at this
  have := (this.1 _ (List.mem_singleton.2 rfl)).1
  rw [(five_facts a op).1] at this
  cases this

/-- patterns over the selectors of `S` behave as the sets of selectors that underwent the same operations: membership and equality are those of the sets -/
def Spec.BehavesAsSet (S : Selector → Prop) : Prop :=
  (∀ (init : List Selector) (ops : List PatOp), (∀ s ∈ mentioned init ops, S s) → ∀ x, S x → ((patRun init ops).contains x = true ↔ (bothRun init ops).2 x)) ∧
  (∀ (init init' : List Selector) (ops ops' : List PatOp), (∀ s ∈ mentioned init ops, S s) → (∀ s ∈ mentioned init' ops', S s) →
    ((patRun init ops).eq (patRun init' ops') = true ↔ ∀ x, S x → ((bothRun init ops).2 x ↔ (bothRun init' ops').2 x))) ∧
  (∀ l l' : List Selector, (∀ s ∈ l, S s) → (∀ s ∈ l', S s) → (∀ s, s ∈ l ↔ s ∈ l') → (Pattern.new l).eq (Pattern.new l') = true)

/-- **C07.** For every typing of columns: patterns over these columns behave as sets of selectors (membership, equality, independence of the order and the repetitions in the
constructor) exactly when no column is compared both with texts and numbers by the same operator. -/
theorem C07_exact (T : Str → Op → Bool → Prop) : BehavesAsSet (Typed T) ↔ OneKind T := by
  constructor
  · rintro ⟨-, -, h⟩ a op hop hT
    obtain ⟨t1, t2⟩ := typed_five hop hT
    have := h [⟨a, op, .int 5⟩, ⟨a, op, .str c!"5"⟩] [⟨a, op, .str c!"5"⟩, ⟨a, op, .int 5⟩] (by simp; exact ⟨t1, t2⟩) (by simp; exact ⟨t2, t1⟩)
      (by intro s; simp; tauto)
    rw [Pattern.eq_iff_keys, (five_new a op).1, (five_new a op).2] at this
    simp only [List.map_cons, List.map_nil, List.cons.injEq] at this
    have h3 := (Selector.eq_iff_key _ _).2 this.1
    rw [(five_facts a op).2.2.1] at h3
    cases h3
  · intro h
    have hh := typed_homogeneous h
    exact ⟨fun init ops hm x hx => C07_contains _ hh init ops hm x hx, fun init init' ops ops' hm hm' => (C07_eq _ hh init init' ops ops' hm hm').1,
      fun l l' hl hl' he => C07_constructor _ hh l l' hl hl' he⟩

/-- a typing with one kind per column, and selectors of it -/
example : OneKind (fun a _ b => b = (a == c!"name")) ∧ Typed (fun a _ b => b = (a == c!"name")) ⟨c!"name", .notEqual, .str c!"x"⟩ ∧
    Typed (fun a _ b => b = (a == c!"name")) ⟨c!"age", .less, .flt (mkFlt 25 (-1))⟩ :=
  ⟨fun a op _ h => Bool.noConfusion (h.1.trans h.2.symm), ⟨rfl, rfl⟩, ⟨rfl, by decide⟩⟩

/-! ## C08 -/

theorem evaluate_error {op : Op} {v w : Val} {e : PyErr} (h : op.evaluate v w = .error e) : e = .typeError := by
  cases op <;> cases v <;> cases w <;> simp [Op.evaluate, Val.lt?, Val.le?] at h <;> exact h.symm

theorem mapM_error_of {α β : Type} (f : α → Except PyErr β) (e : PyErr) (huni : ∀ a e', f a = .error e' → e' = e) :
    ∀ (l : List α), (∃ a ∈ l, ∃ e', f a = .error e') → l.mapM f = .error e := by
  intro l
  induction l with
  | nil => rintro ⟨a, h, -⟩; cases h
  | cons a l ih =>
    rintro ⟨x, hx, e', he'⟩
    rw [mapM_cons_eq]
    cases hf : f a with
    | error e'' => rw [huni a e'' hf]
    | ok b =>
      simp only
      rcases List.mem_cons.1 hx with rfl | hx
      · rw [hf] at he'; cases he'
      · rw [ih ⟨x, hx, e', he'⟩]

/-- the selectors `l1` can be evaluated and leave some row: evaluation goes on after them -/
def Spec.Reached (df : Frame) (l1 : List Selector) : Prop := (∃ m, (⟨l1⟩ : Pattern).isContained df = .ok m) ∧ ∃ i, i < df.nrows ∧ Covers df l1 i

theorem contained_loop_error {df : Frame} (hw : WF df) : ∀ (l pre : List Selector) (m : List Bool) (e : PyErr), (⟨pre⟩ : Pattern).isContained df = .ok m →
    containedLoop df l m = .error e →
    ∃ l1 s l2, l = l1 ++ s :: l2 ∧ Reached df (pre ++ l1) ∧
      ((e = .keyError ∧ df.cols.lookup s.attr = none) ∨
       (e = .typeError ∧ ∃ col, df.cols.lookup s.attr = some col ∧ ∃ v ∈ col, s.op.evaluate v s.val = .error .typeError)) := by
  intro l
  induction l with
  | nil => intro pre m e _ h; cases h
  | cons s l ih =>
    intro pre m e hpre h
    rw [containedLoop] at h
    by_cases hany : m.any id = true
    · rw [if_pos hany] at h
      have hreach : Reached df pre := by
        refine ⟨⟨m, hpre⟩, ?_⟩
        obtain ⟨g1, g2⟩ := C08_coverage ⟨pre⟩ df hw m hpre
        rw [List.any_eq_true] at hany
        obtain ⟨b, hb, hbt⟩ := hany
        obtain ⟨i, hi, rfl⟩ := List.getElem_of_mem hb
        exact ⟨i, by omega, (g2 i hi).1 hbt⟩
      cases hl : df.cols.lookup s.attr with
      | none =>
        simp only [Frame.col, hl] at h
        cases h
        exact ⟨[], s, l, rfl, by simpa using hreach, .inl ⟨rfl, hl⟩⟩
      | some col =>
        simp only [Frame.col, hl] at h
        cases hm : s.matchSeries col with
        | error e' =>
          rw [hm] at h
          cases h
          obtain ⟨v, hv, he⟩ := mapM_error hm
          have := evaluate_error he
          subst this
          exact ⟨[], s, l, rfl, by simpa using hreach, .inr ⟨rfl, col, hl, v, hv, he⟩⟩
        | ok m' =>
          rw [hm] at h
          simp only at h
          have hpre' : (⟨pre ++ [s]⟩ : Pattern).isContained df = .ok (List.zipWith (· && ·) m m') := by
            show containedLoop df (pre ++ [s]) _ = _
            rw [containedLoop_append pre [s] _ m hpre hany, containedLoop, if_pos hany]
            simp [Frame.col, hl, hm, containedLoop]
          obtain ⟨l1, t, l2, h1, h2, h3⟩ := ih (pre ++ [s]) _ e hpre' h
          exact ⟨s :: l1, t, l2, by rw [h1]; rfl, by simpa using h2, h3⟩
    · rw [if_neg hany] at h
      cases h

/-- **C08.** Exactly when coverage raises: for every pattern and data frame, `is_contained` raises `KeyError` (`TypeError`) exactly when some selector is reached, that is, the selectors
before it can be evaluated and leave some row, and its attribute is not a column (has a cell that cannot be compared with its value). In all other cases it returns. -/
theorem C08_exact (p : Pattern) (df : Frame) (hw : WF df) (e : PyErr) :
    p.isContained df = .error e ↔ ∃ l1 s l2, p.sels = l1 ++ s :: l2 ∧ Reached df l1 ∧
      ((e = .keyError ∧ df.cols.lookup s.attr = none) ∨
       (e = .typeError ∧ ∃ col, df.cols.lookup s.attr = some col ∧ ∃ v ∈ col, s.op.evaluate v s.val = .error .typeError)) := by
  constructor
  · intro h
    obtain ⟨l1, s, l2, h1, h2, h3⟩ := contained_loop_error hw p.sels [] _ e rfl h
    exact ⟨l1, s, l2, h1, by simpa using h2, h3⟩
  · rintro ⟨l1, s, l2, hp, ⟨⟨m, hm⟩, i, hi, hc⟩, h⟩
    have hp' : p = ⟨l1 ++ s :: l2⟩ := by cases p; simp only at hp; rw [hp]
    rcases h with ⟨rfl, hs⟩ | ⟨rfl, col, hs, v, hv, he⟩
    · rw [hp']; exact C08_keyError l1 l2 s df hw m hm i hi hc hs
    · obtain ⟨g1, g2⟩ := C08_coverage ⟨l1⟩ df hw m hm
      have hmi : m[i]'(by omega) = true := (g2 i (by omega)).2 hc
      have hany : m.any id = true := by
        rw [List.any_eq_true]; exact ⟨_, List.getElem_mem _, hmi⟩
      rw [hp']
      show containedLoop df (l1 ++ s :: l2) _ = _
      rw [containedLoop_append l1 (s :: l2) _ m hm hany, containedLoop, if_pos hany]
      have : s.matchSeries col = .error .typeError :=
        mapM_error_of _ _ (fun a e' h => evaluate_error h) col ⟨v, hv, _, he⟩
      simp [Frame.col, hs, this]

/-- a selector whose attribute is missing is reached, and one that is not -/
example : Reached ⟨2, [(c!"a", [.int 1, .int 2])]⟩ [⟨c!"a", .less, .int 2⟩] ∧ ¬ Reached ⟨2, [(c!"a", [.int 1, .int 2])]⟩ [⟨c!"a", .less, .int 0⟩] := by
  constructor
  · refine ⟨⟨[true, false], by decide +kernel⟩, 0, by decide, ?_⟩
    exact ((C08_coverage ⟨[⟨c!"a", .less, .int 2⟩]⟩ ⟨2, [(c!"a", [.int 1, .int 2])]⟩ (by simp [WF]) [true, false] (by decide +kernel)).2 0 (by decide)).1 rfl
  · rintro ⟨-, i, hi, hc⟩
    have := (C08_coverage ⟨[⟨c!"a", .less, .int 0⟩]⟩ ⟨2, [(c!"a", [.int 1, .int 2])]⟩ (by simp [WF]) [false, false] (by decide +kernel)).2 i hi
    rw [← this] at hc
    match i, hi with
    | 0, _ => cases hc
    | 1, _ => cases hc

/-! ## C11 -/

theorem occurs_iff_infix (sep s : Str) : Occurs sep s ↔ sep <:+: s :=
  ⟨fun ⟨a, b, h⟩ => ⟨a, b, h.symm⟩, fun ⟨a, b, h⟩ => ⟨a, b, h.symm⟩⟩

theorem first_occ {sep : Str} (hsep : sep ≠ []) : ∀ s, Occurs sep s → ∃ a b, s = a ++ sep ++ b ∧ ¬ Occurs sep a := by
  have hnil : ¬ Occurs sep [] := by
    rintro ⟨a, b, h⟩
    simp at h
    exact hsep h.2.1
  intro s
  induction s with
  | nil => intro h; exact absurd h hnil
  | cons c cs ih =>
    intro h
    cases hd : dropPrefix? sep (c :: cs) with
    | some r => exact ⟨[], r, by simpa using dropPrefix_some hd, hnil⟩
    | none =>
      have hcs : Occurs sep cs := by
        obtain ⟨a, b, hab⟩ := h
        cases a with
        | nil =>
          rw [List.nil_append] at hab
          rw [hab, dropPrefix_self] at hd; cases hd
        | cons x a =>
          simp only [List.cons_append, List.cons.injEq] at hab
          exact ⟨a, b, hab.2⟩
      obtain ⟨a, b, h1, h2⟩ := ih hcs
      refine ⟨c :: a, b, by rw [h1]; rfl, ?_⟩
      rintro ⟨x, y, hxy⟩
      cases x with
      | nil =>
        have : c :: cs = sep ++ (y ++ sep ++ b) := by
          rw [h1]
          have := congrArg (· ++ (sep ++ b)) hxy
          simpa using this
        rw [this, dropPrefix_self] at hd; cases hd
      | cons z x =>
        simp only [List.cons_append, List.cons.injEq] at hxy
        exact h2 ⟨x, y, hxy.2⟩

/-- the pieces of a split do not contain the separator -/
theorem splitOn_pieces {c : Char} {sep' : Str} (hc : c ∉ sep') (s : Str) : ∀ u ∈ splitOn (c :: sep') s, ¬ Occurs (c :: sep') u := by
  induction hn : s.length using Nat.strong_induction_on generalizing s with
  | _ n ih =>
    by_cases ho : Occurs (c :: sep') s
    · obtain ⟨a, b, h1, h2⟩ := first_occ (by simp) s ho
      intro u hu
      rw [h1, splitOn_first hc a b h2] at hu
      rcases List.mem_cons.1 hu with rfl | hu
      · exact h2
      · exact ih b.length (by subst hn; rw [h1]; simp; omega) b rfl u hu
    · intro u hu
      rw [splitOn_none ho] at hu
      simp at hu; subst hu; exact ho

theorem splitOn_length_append {c : Char} {sep' : Str} (hc : c ∉ sep') (s b : Str) :
    (splitOn (c :: sep') s).length ≤ (splitOn (c :: sep') (s ++ b)).length ∧
    (splitOn (c :: sep') s).length + 1 ≤ (splitOn (c :: sep') (s ++ (c :: sep') ++ b)).length := by
  have hpos : ∀ x, 1 ≤ (splitOn (c :: sep') x).length := by
    intro x
    by_cases ho : Occurs (c :: sep') x
    · obtain ⟨a, b, h1, h2⟩ := first_occ (by simp) x ho
      rw [h1, splitOn_first hc a b h2]; simp
    · rw [splitOn_none ho]; simp
  induction hn : s.length using Nat.strong_induction_on generalizing s with
  | _ n ih =>
    by_cases ho : Occurs (c :: sep') s
    · obtain ⟨x, y, h1, h2⟩ := first_occ (by simp) s ho
      have := ih y.length (by subst hn; rw [h1]; simp; omega) y rfl
      have e1 : s ++ b = x ++ (c :: sep') ++ (y ++ b) := by rw [h1]; simp
      have e2 : s ++ (c :: sep') ++ b = x ++ (c :: sep') ++ (y ++ (c :: sep') ++ b) := by rw [h1]; simp
      rw [e2, e1, splitOn_first hc _ _ h2, splitOn_first hc _ _ h2, h1, splitOn_first hc _ _ h2]
      simp only [List.length_cons]
      omega
    · rw [splitOn_none ho]
      refine ⟨by simpa using hpos _, ?_⟩
      rw [splitOn_first hc _ _ ho]
      have := hpos b
      simp
      omega

/-- an occurrence of a text that has no `q` lies on one side of a `q` -/
theorem occurs_around {sep a b : Str} {q : Char} (hq : q ∉ sep) (h : Occurs sep (a ++ q :: b)) : Occurs sep a ∨ Occurs sep b := by
  obtain ⟨x, y, hxy⟩ := h
  rw [List.append_assoc, List.append_eq_append_iff] at hxy
  rcases hxy with ⟨w, h1, h2⟩ | ⟨w, h1, h2⟩
  · -- x = a ++ w, q :: b = w ++ (sep ++ y)
    cases w with
    | nil =>
      cases sep with
      | nil => exact .inl ⟨a, [], by simp⟩
      | cons z sep =>
        simp only [List.nil_append, List.cons_append, List.cons.injEq] at h2
        exact absurd (by simp [h2.1]) hq
    | cons z w =>
      simp only [List.cons_append, List.cons.injEq] at h2
      exact .inr ⟨w, y, by rw [h2.2]; simp⟩
  · -- a = x ++ w, sep ++ y = w ++ q :: b
    rw [List.append_eq_append_iff] at h2
    rcases h2 with ⟨v, h3, h4⟩ | ⟨v, h3, h4⟩
    · -- w = sep ++ v
      exact .inl ⟨x, v, by rw [h1, h3]; simp⟩
    · cases v with
      | nil => exact .inl ⟨x, [], by rw [h1, h3]; simp⟩
      | cons z v =>
        simp only [List.cons_append, List.cons.injEq] at h4
        exact absurd (by rw [h3, h4.1]; simp) hq

/-- an occurrence of a text that ends in `q` does not reach beyond the last `q` -/
theorem occurs_before {sep a b : Str} {q : Char} (hb : q ∉ b) (h : Occurs (sep ++ [q]) (a ++ b)) : Occurs (sep ++ [q]) a := by
  obtain ⟨x, y, hxy⟩ := h
  rw [List.append_eq_append_iff] at hxy
  rcases hxy with ⟨w, h1, h2⟩ | ⟨w, h1, h2⟩
  · -- x ++ (sep++[q]) = a ++ w, b = w ++ y
    cases hw : w.reverse with
    | nil =>
      simp at hw; subst hw
      exact ⟨x, [], by simpa using h1.symm⟩
    | cons z r =>
      have hw' : w = r.reverse ++ [z] := by
        have := congrArg List.reverse hw; simpa using this
      rw [hw', ← List.append_assoc, ← List.append_assoc] at h1
      have := List.append_inj_right' h1 (by simp)
      simp at this
      exact absurd (by rw [h2, hw', this]; simp) hb
  · exact ⟨x, w, by rw [h1]⟩

namespace Selector

theorem splitFirst_some {s a r : Str} (h : splitFirst (· == ' ') s = (a, some r)) : s = a ++ ' ' :: r := by
  induction s generalizing a with
  | nil => simp [splitFirst] at h
  | cons c s ih =>
    simp only [splitFirst] at h
    split at h
    · rename_i hc
      simp only [Prod.mk.injEq, Option.some.injEq] at h
      obtain ⟨rfl, rfl⟩ := h
      simp only [beq_iff_eq] at hc
      simp [hc]
    · simp only [Prod.mk.injEq] at h
      obtain ⟨rfl, h2⟩ := h
      have := ih (a := (splitFirst (· == ' ') s).1) (by rw [← h2])
      simpa using this

/-- what is read: attribute, operator, value text -/
theorem generateFromStr_parts {u : Str} {t : Selector} (h : generateFromStr u = .ok t) :
    ∃ text, u = t.attr ++ ' ' :: (t.op.str ++ ' ' :: text) ∧ parseVal text = .ok t.val := by
  unfold generateFromStr at h
  split at h
  · cases h
  · rename_i a rest heq
    split at h
    rename_i o third heq2
    split at h
    · cases h
    · rename_i op hop
      split at h
      · cases h
      · rename_i text
        split at h
        · cases h
        · rename_i v hv
          unfold mk? at h
          split at h
          · cases h
          · cases h
            refine ⟨text, ?_, hv⟩
            have h2 := splitFirst_some heq2
            have h1 := splitFirst_some heq
            rw [h1, h2, Op.generateFromStr_ok hop]

/-- a value read is a number or a part of the text -/
theorem parseVal_cases {text : Str} {v : Val} (h : parseVal text = .ok v) : v.isStr = false ∨ ∃ w, v = .str w ∧ w <:+: text := by
  unfold parseVal at h
  split at h
  · split at h
    · cases h
      refine .inr ⟨_, rfl, ?_⟩
      exact (List.dropLast_prefix _).isInfix.trans (List.tail_suffix _).isInfix
    · split at h
      · split at h
        · cases h; exact .inl rfl
        · cases h; exact .inr ⟨_, rfl, List.infix_rfl⟩
      · split at h
        · cases h; exact .inl rfl
        · cases h; exact .inr ⟨_, rfl, List.infix_rfl⟩
  · cases h

theorem str_split (t : Selector) : t.str = (t.attr ++ ' ' :: (t.op.str ++ c!" ")) ++ valText t.val := by
  simp [str]

/-- a separator that ends in a blank and has no quote occurs in a read selector's text only if it occurs in the text read -/
theorem occurs_of_read {sep u : Str} {t : Selector} (hq : '\'' ∉ sep ++ c!" ") (h : generateFromStr u = .ok t)
    (ho : Occurs (sep ++ c!" ") t.str) : Occurs (sep ++ c!" ") u := by
  obtain ⟨text, hu, hv⟩ := generateFromStr_parts h
  rw [str_split] at ho
  rcases parseVal_cases hv with hn | ⟨w, hw, hwi⟩
  · have := occurs_before (fun hc => (valText_num_chars hn _ hc).1 rfl) ho
    rw [occurs_iff_infix] at this ⊢
    refine this.trans ?_
    rw [hu]
    exact ⟨[], text, by simp⟩
  · rw [hw] at ho
    simp only [valText, List.cons_append] at ho
    rcases occurs_around hq ho with ho | ho
    · rw [occurs_iff_infix] at ho ⊢
      refine ho.trans ?_
      rw [hu]
      exact ⟨[], text, by simp⟩
    · rcases occurs_around hq ho with ho | ho
      · rw [occurs_iff_infix] at ho ⊢
        refine (ho.trans hwi).trans ?_
        rw [hu]
        exact ⟨t.attr ++ ' ' :: (t.op.str ++ c!" "), [], by simp⟩
      · obtain ⟨a, b, hab⟩ := ho
        simp at hab

theorem eq_iff (s t : Selector) : s.eq t = true ↔ s.attr = t.attr ∧ s.op = t.op ∧ s.val.eq t.val = true := by
  simp only [eq, Bool.and_eq_true, beq_iff_eq, Op.eq]
  constructor
  · rintro ⟨⟨h1, h2⟩, h3⟩
    exact ⟨h1, by revert h2; cases s.op <;> cases t.op <;> decide, h3⟩
  · rintro ⟨h1, h2, h3⟩
    exact ⟨⟨h1, by rw [h2]⟩, h3⟩

/-- equal selectors contain the same separators -/
theorem occurs_of_eq {sep : Str} {s t : Selector} (h : s.eq t = true) (ho : Occurs (sep ++ c!" ") s.str) : Occurs (sep ++ c!" ") t.str := by
  obtain ⟨h1, h2, h3⟩ := (eq_iff s t).1 h
  rw [str_split] at ho ⊢
  rw [h1, h2] at ho
  cases hs : s.val.isStr with
  | false =>
    have := occurs_before (fun hc => (valText_num_chars hs _ hc).1 rfl) ho
    rw [occurs_iff_infix] at this ⊢
    exact this.trans ⟨[], valText t.val, by simp⟩
  | true =>
    have : s.val = t.val := by
      revert h3 hs
      cases s.val <;> cases t.val <;> simp [Val.eq, Val.isStr]
    rwa [this] at ho

end Selector

theorem dedupLoop_sub : ∀ (l acc : List Selector), (∀ s ∈ Pattern.dedupLoop acc l, s ∈ acc ∨ s ∈ l) ∧ (Pattern.dedupLoop acc l).length ≤ acc.length + l.length := by
  intro l
  induction l with
  | nil => intro acc; cases acc <;> simp [Pattern.dedupLoop, or_comm]
  | cons x l ih =>
    intro acc
    cases acc with
    | nil =>
      simp only [Pattern.dedupLoop]
      obtain ⟨h1, h2⟩ := ih [x]
      refine ⟨fun s hs => ?_, by simp at h2 ⊢; omega⟩
      rcases h1 s hs with h | h
      · simp at h; simp [h]
      · simp [h]
    | cons y ys =>
      simp only [Pattern.dedupLoop]
      split
      · obtain ⟨h1, h2⟩ := ih (x :: y :: ys)
        refine ⟨fun s hs => ?_, by simp at h2 ⊢; omega⟩
        rcases h1 s hs with h | h
        · simp only [List.mem_cons] at h ⊢; tauto
        · simp [h]
      · obtain ⟨h1, h2⟩ := ih (y :: ys)
        refine ⟨fun s hs => ?_, by simp at h2 ⊢; omega⟩
        rcases h1 s hs with h | h
        · exact .inl h
        · simp [h]

theorem new_sub (l : List Selector) : (∀ s ∈ (Pattern.new l).sels, s ∈ l) ∧ (Pattern.new l).sels.length ≤ l.length := by
  obtain ⟨h1, h2⟩ := dedupLoop_sub (pySort Selector.lt l) []
  refine ⟨fun s hs => ?_, ?_⟩
  · rcases h1 s hs with h | h
    · simp at h
    · exact (pySort_perm _ _).subset h
  · have := (pySort_perm Selector.lt l).length_eq
    simp only [List.length_nil, Nat.zero_add, this] at h2
    exact h2

/-- whatever text is read as a pattern: its selectors come from the pieces between the separators -/
theorem generate_pieces {x : Str} {q : Pattern} (h : Pattern.generateFromStr x = .ok q) :
    q.sels = [] ∨ ∃ l, (splitOn c!", " x.tail.dropLast).mapM Selector.generateFromStr = .ok l ∧ q = Pattern.new l := by
  unfold Pattern.generateFromStr at h
  split at h
  · cases h; left; rfl
  · split at h
    · cases h
    · rename_i l hl
      cases h
      exact .inr ⟨l, hl, rfl⟩

theorem read_all {l : List Str} {r : List Selector} (h : l.mapM Selector.generateFromStr = .ok r) :
    r.length = l.length ∧ ∀ t ∈ r, ∃ u ∈ l, Selector.generateFromStr u = .ok t := by
  induction l generalizing r with
  | nil => cases h; simp
  | cons u l ih =>
    rw [mapM_cons_eq] at h
    cases hu : Selector.generateFromStr u with
    | error e => rw [hu] at h; cases h
    | ok t =>
      rw [hu] at h
      cases hl : l.mapM Selector.generateFromStr with
      | error e => rw [hl] at h; cases h
      | ok r' =>
        rw [hl] at h
        cases h
        obtain ⟨h1, h2⟩ := ih hl
        refine ⟨by simp [h1], ?_⟩
        intro t' ht'
        rcases List.mem_cons.1 ht' with rfl | ht'
        · exact ⟨u, by simp, hu⟩
        · obtain ⟨w, h3, h4⟩ := h2 t' ht'
          exact ⟨w, by simp [h3], h4⟩

theorem eq_members {p q : Pattern} (h : q.eq p = true) : q.sels.length = p.sels.length ∧ ∀ s ∈ p.sels, ∃ t ∈ q.sels, t.eq s = true := by
  rw [Pattern.eq_iff_keys] at h
  refine ⟨by simpa using congrArg List.length h, fun s hs => ?_⟩
  have : s.key ∈ q.sels.map Selector.key := by rw [h]; exact List.mem_map_of_mem hs
  obtain ⟨t, ht, hk⟩ := List.mem_map.1 this
  exact ⟨t, ht, (Selector.eq_iff_key t s).2 hk⟩

/-- a pattern read from any text has no blank in its attributes and does not print the separator -/
theorem read_pattern {x : Str} {q p : Pattern} (h : Pattern.generateFromStr x = .ok q) (he : q.eq p = true) :
    ∀ s ∈ p.sels, ' ' ∉ s.attr ∧ ¬ Occurs c!", " s.str := by
  intro s hs
  obtain ⟨-, h2⟩ := eq_members he
  obtain ⟨t, ht, hts⟩ := h2 s hs
  rcases generate_pieces h with h0 | ⟨l, hl, rfl⟩
  · rw [h0] at ht; simp at ht
  · have ht' := (new_sub l).1 t ht
    obtain ⟨u, hu, hut⟩ := (read_all hl).2 t ht'
    have hno := splitOn_pieces (c := ',') (sep' := c!" ") (by decide) _ u hu
    refine ⟨?_, fun ho => hno ?_⟩
    · rw [← ((Selector.eq_iff t s).1 hts).1]; exact Selector.generateFromStr_attr hut
    · have hst : s.eq t = true := by rw [Selector.eq_iff_key] at hts ⊢; exact hts.symm
      exact Selector.occurs_of_read (sep := c!",") (by decide) hut (Selector.occurs_of_eq (sep := c!",") hst ho)

theorem p_str_body {p : Pattern} (hp : p.sels ≠ []) (hsep : ∀ s ∈ p.sels, ¬ Occurs c!", " s.str) :
    ∃ body, p.str = '[' :: (body ++ c!"]") ∧ body ≠ [] ∧ splitOn c!", " body = p.sels.map Selector.str := by
  obtain ⟨s, rest, hps⟩ := List.exists_cons_of_ne_nil hp
  obtain ⟨body, h1, h2⟩ := strLoop_eq s rest
  rw [hps] at hsep
  have hb := h2 hsep
  refine ⟨body, ?_, ?_, by rw [hps]; exact hb⟩
  · unfold Pattern.str
    rw [hps, if_neg (by simp), h1]
  · rintro rfl
    obtain ⟨c, cs, h4⟩ := str_ne_nil s
    have h5 : splitOn c!", " [] = [[]] := rfl
    rw [h5, List.map_cons, h4] at hb
    simp at hb

/-- the pattern's own text read back equal: every float shows its point -/
theorem read_points {p q : Pattern} (hsort : (p.sels.map Selector.key).Nodup) (h : Pattern.generateFromStr p.str = .ok q) (he : q.eq p = true)
    (s : Selector) (hs : s ∈ p.sels) (f : Flt) (hf : s.val = .flt f) : '.' ∈ f.str := by
  by_contra hpt
  have hr := read_pattern h he
  have hne : p.sels ≠ [] := List.ne_nil_of_mem hs
  obtain ⟨body, h1, h2, h3⟩ := p_str_body hne (fun s hs => (hr s hs).2)
  obtain ⟨hlen, hmem⟩ := eq_members he
  obtain ⟨t, ht, hts⟩ := hmem s hs
  rcases generate_pieces h with h0 | ⟨l, hl, rfl⟩
  · rw [h0] at ht; simp at ht
  · rw [h1, List.tail_cons, List.dropLast_concat, h3] at hl
    obtain ⟨u, hu, hut⟩ := (read_all hl).2 t ((new_sub l).1 t ht)
    obtain ⟨s', hs', rfl⟩ := List.mem_map.1 hu
    have htn : t.val.isStr = false := by
      have := ((Selector.eq_iff t s).1 hts).2.2
      rw [hf] at this
      revert this
      cases t.val <;> simp [Val.eq, Val.isStr]
    rw [Selector.generateFromStr_of_no_blank s' (hr s' hs').1] at hut
    have hback : Selector.parseVal (Selector.valText s'.val) = .ok s'.val → False := by
      intro hv
      rw [hv] at hut
      simp only [Selector.mk?] at hut
      split at hut
      · cases hut
      · have : s'.key = s.key := by
          rw [← Selector.eq_iff_key]
          cases hut
          exact hts
        have hss : s' = s := List.inj_on_of_nodup_map hsort hs' hs this
        rw [hss, hf, Selector.parseVal_flt_nopoint f hpt] at hv
        cases hv
    cases hsv : s'.val with
    | str x => exact hback (by rw [hsv]; exact Selector.parseVal_str x)
    | int z => exact hback (by rw [hsv]; exact Selector.parseVal_int z)
    | flt g =>
      by_cases hg : '.' ∈ g.str
      · exact hback (by rw [hsv]; exact Selector.parseVal_flt g hg)
      · rw [hsv, Selector.parseVal_flt_nopoint g hg] at hut
        simp only [Selector.mk?] at hut
        split at hut
        · cases hut
        · cases hut; simp [Val.isStr] at htn

/-- **C11.** A pattern built and edited in any way from selectors without mixed kinds is read back from its printed form as an equal pattern exactly when each of its selectors has no blank in
its attribute name, prints floats with a point, and does not print `", "`. -/
theorem C11_pattern_exact (S : Selector → Prop) (hS : Homogeneous S) (init : List Selector) (ops : List PatOp)
    (hm : ∀ s ∈ mentioned init ops, S s) (hl : ∀ s ∈ mentioned init ops, Selector.legal s.op s.val = true) :
    (∃ q, Pattern.generateFromStr (patRun init ops).str = .ok q ∧ q.eq (patRun init ops) = true) ↔
    ∀ s ∈ (patRun init ops).sels, TextSafe s ∧ ¬ Occurs c!", " s.str := by
  have hl' : ∀ s ∈ (patRun init ops).sels, Selector.legal s.op s.val = true := fun s hs =>
    ((run_inv (S := fun s => S s ∧ Selector.legal s.op s.val = true) (fun a b ha hb => hS a b ha.1 hb.1) init ops (fun s hs => ⟨hm s hs, hl s hs⟩)).1 s hs).2
  constructor
  · rintro ⟨q, h, he⟩ s hs
    obtain ⟨-, h2⟩ := run_inv hS init ops hm
    refine ⟨⟨hl' s hs, (read_pattern h he s hs).1, fun f hf => ?_⟩, (read_pattern h he s hs).2⟩
    rw [← fltStr_point]
    refine read_points ?_ h he s hs f hf
    rw [List.nodup_iff_pairwise_ne, List.pairwise_map]
    exact h2.imp (fun h => ne_of_lt h)
  · intro h
    exact C11_pattern_safe S hS init ops hm (fun s hs => (h s hs).1) (fun s hs => (h s hs).2)

/-- **C11.** The same for subgroups: the description's own conditions, those of the target, and `", Target: "` occurs neither in the printed description nor in the printed target. -/
theorem C11_subgroup_exact (S : Selector → Prop) (hS : Homogeneous S) (init : List Selector) (ops : List PatOp)
    (hm : ∀ s ∈ mentioned init ops, S s) (hl : ∀ s ∈ mentioned init ops, Selector.legal s.op s.val = true)
    (target : Selector) (htl : Selector.legal target.op target.val = true) :
    (∃ t, Subgroup.generateFromStr (⟨patRun init ops, target⟩ : Subgroup).str = .ok t ∧ t.eq ⟨patRun init ops, target⟩ = true) ↔
    (∀ s ∈ (patRun init ops).sels, TextSafe s ∧ ¬ Occurs c!", " s.str) ∧ TextSafe target ∧
      ¬ Occurs c!", Target: " (patRun init ops).str ∧ ¬ Occurs c!", Target: " target.str := by
  have hdesc : ∀ x : Str, Occurs c!", Target: " (c!"Description: " ++ x) ↔ Occurs c!", Target: " x := by
    intro x
    constructor
    · intro h
      have h13 : ∀ (d x : Str), ',' ∉ d → Occurs c!", Target: " (d ++ x) → Occurs c!", Target: " x := by
        intro d
        induction d with
        | nil => intro x _ h; exact h
        | cons c d ih =>
          rintro x hd ⟨a, b, hab⟩
          cases a with
          | nil =>
            simp only [List.nil_append, List.cons_append, List.cons.injEq] at hab
            exact absurd (by simp [hab.1]) hd
          | cons z a =>
            simp only [List.cons_append, List.cons.injEq] at hab
            exact ih x (fun hc => hd (by simp [hc])) ⟨a, b, by simpa using hab.2⟩
      exact h13 _ x (by decide) h
    · rintro ⟨a, b, rfl⟩
      exact ⟨c!"Description: " ++ a, b, by simp⟩
  constructor
  · rintro ⟨t, h, he⟩
    have he' : t.description.eq (patRun init ops) = true ∧ t.target.eq target = true := by
      simpa [Subgroup.eq, Bool.and_eq_true] using he
    generalize hp : patRun init ops = p at *
    unfold Subgroup.generateFromStr at h
    split at h
    · rename_i d tt more hsplit
      split at h
      · cases h
      · rename_i tg htg
        split at h
        · cases h
        · rename_i dd hdd
          cases h
          simp only [Subgroup.str] at hsplit he'
          by_cases hD : Occurs c!", Target: " (c!"Description: " ++ p.str)
          · exfalso
            obtain ⟨a, b, h1, h2⟩ := first_occ (by simp) _ hD
            have hs2 : splitOn c!", Target: " (c!"Description: " ++ p.str ++ c!", Target: " ++ target.str) =
                a :: splitOn c!", Target: " (b ++ c!", Target: " ++ target.str) := by
              have := splitOn_first (c := ',') (sep' := c!" Target: ") (by decide) a (b ++ c!", Target: " ++ target.str) h2
              rw [← this, h1]; simp
            rw [hs2] at hsplit
            simp only [List.cons.injEq] at hsplit
            have had : a = d := hsplit.1
            subst had
            -- the cut falls after `Description: [`
            have hpe : p.sels ≠ [] := by
              intro hpe
              have : p.str = c!"[]" := by simp [Pattern.str, hpe]
              rw [this] at hD
              obtain ⟨x, y, hxy⟩ := hD
              have : ',' ∈ (c!"Description: " ++ c!"[]" : Str) := by rw [hxy]; simp
              revert this; decide
            have hr := read_pattern hdd he'.1
            obtain ⟨body, b1, b2, b3⟩ := p_str_body hpe (fun s hs => (hr s hs).2)
            have ha14 : ∃ a', a = c!"Description: [" ++ a' := by
              have hpre : c!"Description: [" <+: a ++ (c!", Target: " ++ b) := by
                rw [← List.append_assoc, ← h1, b1]; exact ⟨body ++ c!"]", by simp⟩
              by_cases hlen : 14 ≤ a.length
              · obtain ⟨w, hw⟩ := List.prefix_of_prefix_length_le hpre (List.prefix_append a _) (by simpa using hlen)
                exact ⟨w, hw.symm⟩
              · exfalso
                have g1 : (a ++ (c!", Target: " ++ b))[a.length]? = some ',' := by simp
                obtain ⟨w, hw⟩ := hpre
                rw [← hw, List.getElem?_append_left (by simp; omega)] at g1
                have := List.mem_of_getElem? g1
                revert this; decide
            obtain ⟨a', rfl⟩ := ha14
            have hbody : body ++ c!"]" = a' ++ (c!", Target: " ++ b) := by
              rw [b1] at h1
              simpa using h1
            have hb' : ∃ b', b = b' ++ c!"]" := by
              rcases List.eq_nil_or_concat b with rfl | ⟨b', z, rfl⟩
              · exfalso
                have := congrArg List.getLast? hbody
                simp at this
              · refine ⟨b', ?_⟩
                have hb2 : body ++ c!"]" = (a' ++ (c!", Target: " ++ b')) ++ [z] := by rw [hbody]; simp
                have := List.append_inj_right' hb2 rfl
                rw [this, List.concat_eq_append]
            obtain ⟨b', rfl⟩ := hb'
            have hbody' : body = a' ++ c!", " ++ (c!"Target: " ++ b') := by
              have : body ++ c!"]" = (a' ++ c!", " ++ (c!"Target: " ++ b')) ++ c!"]" := by
                rw [hbody]; simp
              exact List.append_cancel_right this
            have hn : (splitOn c!", " body).length = p.sels.length := by rw [b3]; simp
            have hmore := (splitOn_length_append (c := ',') (sep' := c!" ") (by decide) a' (c!"Target: " ++ b')).2
            rw [← hbody', hn] at hmore
            obtain ⟨hlen, -⟩ := eq_members he'.1
            rcases generate_pieces hdd with h0 | ⟨l, hl', hq⟩
            · rw [h0] at hlen
              exact hpe (List.length_eq_zero_iff.1 hlen.symm)
            · have hx : (c!"Description: [" ++ a').drop 13 = '[' :: a' := rfl
              rw [hx, List.tail_cons] at hl'
              have h3 := (new_sub l).2
              rw [← hq, hlen, (read_all hl').1] at h3
              have h4 : (splitOn c!", " a'.dropLast).length ≤ (splitOn c!", " a').length := by
                rcases List.eq_nil_or_concat a' with rfl | ⟨a'', z, rfl⟩
                · simp
                · rw [List.concat_eq_append, List.dropLast_concat]
                  exact (splitOn_length_append (c := ',') (sep' := c!" ") (by decide) a'' [z]).1
              omega
          · have hs2 : splitOn c!", Target: " (c!"Description: " ++ p.str ++ c!", Target: " ++ target.str) =
                (c!"Description: " ++ p.str) :: splitOn c!", Target: " target.str :=
              splitOn_first (c := ',') (sep' := c!" Target: ") (by decide) _ _ hD
            rw [hs2] at hsplit
            simp only [List.cons.injEq] at hsplit
            obtain ⟨hd, hrest⟩ := hsplit
            rw [← hd] at hdd
            have hx : (c!"Description: " ++ p.str).drop 13 = p.str := rfl
            rw [hx] at hdd
            have htno : ¬ Occurs c!", Target: " target.str := by
              intro ho
              have hno := splitOn_pieces (c := ',') (sep' := c!" Target: ") (by decide) target.str tt (by rw [hrest]; simp)
              have hst : target.eq tg = true := by
                have := he'.2
                rw [Selector.eq_iff_key] at this ⊢; exact this.symm
              exact hno (Selector.occurs_of_read (sep := c!", Target:") (by decide) htg (Selector.occurs_of_eq (sep := c!", Target:") hst ho))
            rw [splitOn_none htno] at hrest
            simp only [List.cons.injEq] at hrest
            rw [← hrest.1] at htg
            have hpat := (C11_pattern_exact S hS init ops hm hl).1 ⟨dd, by rw [hp]; exact ⟨hdd, he'.1⟩⟩
            rw [hp] at hpat
            refine ⟨hpat, ⟨htl, (C05_iff target htl).1 ⟨tg, htg, he'.2⟩⟩, ?_, htno⟩
            rwa [hdesc] at hD
    · cases h
  · rintro ⟨h1, h2, h3, h4⟩
    exact C11_subgroup_safe S hS init ops hm target h2 (fun s hs => (h1 s hs).1) (fun s hs => (h1 s hs).2) (by rwa [hdesc]) h4

/-- a pattern that meets the conditions, and one that does not and is lost -/
example : (∃ q, Pattern.generateFromStr (patRun [⟨c!"b", .equal, .int 2⟩] [.add ⟨c!"a", .equal, .str c!"x,y"⟩]).str = .ok q ∧ q.eq (patRun [⟨c!"b", .equal, .int 2⟩] [.add ⟨c!"a", .equal, .str c!"x,y"⟩]) = true) ∧
    ¬ ∃ q, Pattern.generateFromStr (patRun [⟨c!"b", .equal, .int 2⟩] [.add ⟨c!"a", .equal, .str c!"x, y"⟩]).str = .ok q := by
  refine ⟨⟨⟨[⟨c!"a", .equal, .str c!"x,y"⟩, ⟨c!"b", .equal, .int 2⟩]⟩, by decide +kernel, by decide +kernel⟩, ?_⟩
  rintro ⟨q, h⟩
  have : Pattern.generateFromStr (patRun [⟨c!"b", .equal, .int 2⟩] [.add ⟨c!"a", .equal, .str c!"x, y"⟩]).str = .error .indexError := by decide +kernel
  rw [this] at h; cases h

/-! ## C51 -/
open NodeHeap

section
variable {σ : Type} [DecidableEq σ]

namespace Spec
/-- what a call has done: `added p c` when `p.add_child(c)` succeeded, `removed p c` when `p.delete_child_by_selector(s)` removed the child `c` -/
inductive Event
  | added (p c : Nat)
  | removed (p c : Nat)
  deriving DecidableEq

/-- the child an event is about, and whether it is about the pair `p`, `c` -/
def Event.child : Event → Nat
  | .added _ c => c
  | .removed _ c => c
def Event.pair : Event → Nat × Nat
  | .added p c => (p, c)
  | .removed p c => (p, c)

/-- the event of one call, if any: a refused call leaves none -/
def event (h : NodeHeap σ) : NodeHeap.Op σ → List Event
  | .create _ _ => []
  | .addChild p c => if p < h.length ∧ c < h.length ∧ (h.addChild p c).2 = false then [.added p c] else []
  | .deleteChild p s => match h.getChild p s with
    | some c => [.removed p c]
    | none => []

/-- the events of a history, the latest first -/
def log : NodeHeap σ → List (NodeHeap.Op σ) → List Event
  | _, [] => []
  | h, op :: ops => log (h.step op) ops ++ event h op
end Spec

theorem chi_create (h : NodeHeap σ) (s : σ) (cs : List Nat) (p c : Nat) : Chi (h.step (.create s cs)) p c ↔ Chi h p c := by
  unfold Chi
  simp only [step, create]
  constructor
  · rintro ⟨np, s', h1, h2⟩
    rw [List.getElem?_append] at h1
    split at h1
    · exact ⟨np, s', h1, h2⟩
    · have := List.mem_of_getElem? h1
      simp at this
      rw [this] at h2
      cases h2
  · rintro ⟨np, s', h1, h2⟩
    exact ⟨np, s', by rw [List.getElem?_append_left (List.getElem?_eq_some_iff.1 h1).1]; exact h1, h2⟩

theorem par_create (h : NodeHeap σ) (s : σ) (cs : List Nat) (p c : Nat) : Par (h.step (.create s cs)) c p ↔ Par h c p := by
  unfold Par
  simp only [step, create]
  constructor
  · rintro ⟨nc, h1, h2⟩
    rw [List.getElem?_append] at h1
    split at h1
    · exact ⟨nc, h1, h2⟩
    · have := List.mem_of_getElem? h1
      simp at this
      rw [this] at h2
      cases h2
  · rintro ⟨nc, h1, h2⟩
    exact ⟨nc, by rw [List.getElem?_append_left (List.getElem?_eq_some_iff.1 h1).1]; exact h1, h2⟩

/-- one node's fields after two updates -/
theorem get_two (h : NodeHeap σ) (c p : Nat) (v : Option Nat) (f : List (σ × Nat) → List (σ × Nat)) (q : Nat) :
    ((h.modify c (fun n => { n with parent := v })).modify p (fun n => { n with childs := f n.childs }))[q]? =
      (h[q]?).map (fun n => { n with parent := if q = c then v else n.parent, childs := if q = p then f n.childs else n.childs }) := by
  simp only [List.getElem?_modify]
  cases h[q]? with
  | none => rfl
  | some n =>
    simp only [Option.map_eq_map, Option.map_some, Option.some.injEq]
    have e1 : (c = q) = (q = c) := propext eq_comm
    have e2 : (p = q) = (q = p) := propext eq_comm
    simp only [e1, e2]
    by_cases h1 : q = c
    · by_cases h2 : q = p
      · simp only [if_pos h1, if_pos h2]
      · simp only [if_pos h1, if_neg h2]
    · by_cases h2 : q = p
      · simp only [if_neg h1, if_pos h2]
      · simp only [if_neg h1, if_neg h2]

theorem chi_two (h : NodeHeap σ) (c p : Nat) (v : Option Nat) (f : List (σ × Nat) → List (σ × Nat)) (q d : Nat) :
    Chi ((h.modify c (fun n => { n with parent := v })).modify p (fun n => { n with childs := f n.childs })) q d ↔
      ∃ (nq : FPNode σ) (s : σ), h[q]? = some nq ∧ (s, d) ∈ (if q = p then f nq.childs else nq.childs) := by
  unfold Chi
  rw [get_two]
  constructor
  · rintro ⟨np, s, h1, h2⟩
    cases hh : h[q]? with
    | none => rw [hh] at h1; cases h1
    | some m =>
      rw [hh] at h1
      cases h1
      exact ⟨m, s, rfl, h2⟩
  · rintro ⟨nq, s, h1, h2⟩
    rw [h1]
    exact ⟨_, s, rfl, h2⟩

theorem par_two (h : NodeHeap σ) (c p : Nat) (v : Option Nat) (f : List (σ × Nat) → List (σ × Nat)) (q d : Nat) (hc : c < h.length) :
    Par ((h.modify c (fun n => { n with parent := v })).modify p (fun n => { n with childs := f n.childs })) d q ↔
      (d = c ∧ v = some q) ∨ (d ≠ c ∧ Par h d q) := by
  unfold Par
  rw [get_two]
  by_cases hd : d = c
  · subst hd
    rw [List.getElem?_eq_getElem hc]
    simp
  · simp only [hd, if_false, false_and, false_or, ne_eq, not_false_eq_true, true_and]
    constructor
    · rintro ⟨x, h1, h2⟩
      cases hh : h[d]? with
      | none => rw [hh] at h1; cases h1
      | some m =>
        rw [hh] at h1
        cases h1
        exact ⟨m, rfl, h2⟩
    · rintro ⟨x, h1, h2⟩
      rw [h1]
      exact ⟨_, rfl, h2⟩

/-- how one call changes the two relations -/
theorem step_events {h : NodeHeap σ} (hs : Stored h) (op : NodeHeap.Op σ) (q d : Nat) :
    (Chi (h.step op) q d ↔ match event h op with
      | [] => Chi h q d
      | e :: _ => if e.pair = (q, d) then e = .added q d else Chi h q d) ∧
    (Par (h.step op) d q ↔ match event h op with
      | [] => Par h d q
      | e :: _ => if e.child = d then e = .added q d else Par h d q) := by
  cases op with
  | create s cs => exact ⟨chi_create h s cs q d, par_create h s cs q d⟩
  | addChild p c =>
    simp only [event]
    by_cases hp : p < h.length
    · by_cases hc : c < h.length
      · have hp' : h[p]? = some h[p] := List.getElem?_eq_getElem hp
        have hc' : h[c]? = some h[c] := List.getElem?_eq_getElem hc
        by_cases hdup : (h[p].childs.map (·.1)).contains h[c].sel = true
        · have h2 : h.addChild p c = (h, true) := by simp only [addChild, hp', hc', if_pos hdup]
          rw [if_neg (by rw [h2]; simp)]
          simp only [step, h2]
          first | exact ⟨Iff.rfl, Iff.rfl⟩ | exact ⟨trivial, trivial⟩
        · have h2 : h.addChild p c = ((h.modify c (fun n => { n with parent := some p })).modify p
              (fun n => { n with childs := n.childs ++ [(h[c].sel, c)] }), false) := by simp only [addChild, hp', hc', if_neg hdup]
          rw [if_pos ⟨hp, hc, by rw [h2]⟩]
          simp only [step, h2]
          refine ⟨?_, ?_⟩
          · rw [chi_two h c p (some p) (fun l => l ++ [(h[c].sel, c)])]
            simp only [Event.pair, Prod.mk.injEq, Event.added.injEq]
            by_cases hqp : p = q
            · subst hqp
              simp only [if_true, true_and, hp', Option.some.injEq, List.mem_append, List.mem_singleton, Prod.mk.injEq]
              by_cases hcd : c = d
              · subst hcd; simp only [if_true, iff_true]; exact ⟨_, _, rfl, .inr ⟨rfl, trivial⟩⟩
              · rw [if_neg hcd]
                unfold Chi
                constructor
                · rintro ⟨nq, s, rfl, h3 | ⟨-, h3⟩⟩
                  · exact ⟨_, s, hp', h3⟩
                  · exact absurd h3.symm hcd
                · rintro ⟨np, s, h3, h4⟩
                  rw [hp'] at h3; cases h3
                  exact ⟨_, s, rfl, .inl h4⟩
            · rw [if_neg (by tauto)]
              simp only [if_neg (fun e : q = p => hqp e.symm)]
              rfl
          · rw [par_two h c p (some p) (fun l => l ++ [(h[c].sel, c)]) q d hc]
            simp only [Event.child, Option.some.injEq, Event.added.injEq]
            by_cases hcd : c = d
            · subst hcd; simp
            · rw [if_neg hcd]
              have : ¬ d = c := fun e => hcd e.symm
              simp [this]
      · have h2 : h.addChild p c = (h, false) := by
          simp only [addChild]
          rw [List.getElem?_eq_none (l := h) (i := c) (by omega)]
          split
          · simp_all
          · rfl
        rw [if_neg (by omega)]
        simp only [step, h2]
        first | exact ⟨Iff.rfl, Iff.rfl⟩ | exact ⟨trivial, trivial⟩
    · have h2 : h.addChild p c = (h, false) := by
        simp only [addChild]
        rw [List.getElem?_eq_none (l := h) (i := p) (by omega)]
      rw [if_neg (by omega)]
      simp only [step, h2]
      first | exact ⟨Iff.rfl, Iff.rfl⟩ | exact ⟨trivial, trivial⟩
  | deleteChild p s =>
    simp only [event, getChild]
    cases hp : h[p]? with
    | none => simp [step, deleteChild, hp]
    | some np =>
      simp only
      cases hlk : np.childs.lookup s with
      | none => simp [step, deleteChild, hp, hlk]
      | some c =>
        simp only [step, deleteChild, hp, hlk, Event.pair, Event.child, Prod.mk.injEq, reduceCtorEq]
        have hmem : (s, c) ∈ np.childs := by
          obtain ⟨l1, l2, h2, -⟩ := List.lookup_eq_some_iff.1 hlk
          simp [h2]
        obtain ⟨nc, hc, hsel⟩ := hs.own p np hp (s, c) hmem
        simp only at hc hsel
        refine ⟨?_, ?_⟩
        · rw [chi_two h c p none (fun l => l.filter (fun e => e.1 ≠ s))]
          by_cases hqp : p = q
          · subst hqp
            simp only [if_true, true_and, hp, Option.some.injEq]
            by_cases hcd : c = d
            · subst hcd
              simp only [if_true, iff_false]
              rintro ⟨nq, s', rfl, h3⟩
              rw [List.mem_filter] at h3
              obtain ⟨x, h4, h5⟩ := hs.own p np hp _ h3.1
              simp only at h4 h5
              rw [hc] at h4; cases h4
              simp [← h5, hsel] at h3
            · rw [if_neg hcd]
              unfold Chi
              constructor
              · rintro ⟨nq, s', rfl, h3⟩
                exact ⟨_, s', hp, (List.mem_filter.1 h3).1⟩
              · rintro ⟨nq, s', h3, h4⟩
                rw [hp] at h3; cases h3
                refine ⟨_, s', rfl, List.mem_filter.2 ⟨h4, ?_⟩⟩
                simp only [ne_eq, decide_not, Bool.not_eq_true', decide_eq_false_iff_not]
                rintro rfl
                rw [lookup_of_mem (hs.keys p _ hp) h4] at hlk
                cases hlk
                exact hcd rfl
          · rw [if_neg (by tauto)]
            simp only [if_neg (fun e : q = p => hqp e.symm)]
            rfl
        · rw [par_two h c p none (fun l => l.filter (fun e => e.1 ≠ s)) q d (List.getElem?_eq_some_iff.1 hc).1]
          by_cases hcd : c = d
          · subst hcd; simp
          · rw [if_neg hcd]
            have : ¬ d = c := fun e => hcd e.symm
            simp [this]

theorem event_cases (h : NodeHeap σ) (op : NodeHeap.Op σ) : event h op = [] ∨ ∃ e, event h op = [e] := by
  cases op with
  | create => exact .inl rfl
  | addChild p c => simp only [event]; split <;> simp
  | deleteChild p s => simp only [event]; split <;> simp

theorem run_events (ops : List (NodeHeap.Op σ)) : ∀ (h : NodeHeap σ), Stored h → ∀ q d,
    (Chi (h.run ops) q d ↔ match (log h ops).filter (fun e => e.pair = (q, d)) with
      | [] => Chi h q d
      | e :: _ => e = .added q d) ∧
    (Par (h.run ops) d q ↔ match (log h ops).filter (fun e => e.child = d) with
      | [] => Par h d q
      | e :: _ => e = .added q d) := by
  induction ops with
  | nil => intro h hs q d; first | exact ⟨Iff.rfl, Iff.rfl⟩ | exact ⟨trivial, trivial⟩
  | cons op ops ih =>
    intro h hs q d
    have hrun : h.run (op :: ops) = (h.step op).run ops := by simp [run]
    rw [hrun]
    obtain ⟨i1, i2⟩ := ih _ (stored_step hs op) q d
    obtain ⟨s1, s2⟩ := step_events hs op q d
    simp only [log, List.filter_append]
    refine ⟨i1.trans ?_, i2.trans ?_⟩
    · cases (log (h.step op) ops).filter (fun e => e.pair = (q, d)) with
      | cons e l => rfl
      | nil =>
        simp only [List.nil_append]
        refine s1.trans ?_
        rcases event_cases h op with he | ⟨e, he⟩
        · rw [he]; rfl
        · rw [he]
          by_cases hq : e.pair = (q, d)
          · simp [hq]
          · simp [hq]
    · cases (log (h.step op) ops).filter (fun e => e.child = d) with
      | cons e l => rfl
      | nil =>
        simp only [List.nil_append]
        refine s2.trans ?_
        rcases event_cases h op with he | ⟨e, he⟩
        · rw [he]; rfl
        · rw [he]
          by_cases hq : e.child = d
          · simp [hq]
          · simp [hq]

/-- **C51.** For every history of calls: a node has another as its child exactly when the last successful call about the two added it; a node's parent link is `p` exactly when the last
successful call about it, with any parent, added it to `p`. So the two sides of a link agree for every node given to `add_child` only while it has no parent (`C51_parent`), and a node
added to a second parent stays among the children of the first (`C51_fails`). -/
theorem C51_exact (ops : List (NodeHeap.Op σ)) (p c : Nat) :
    ((run ([] : NodeHeap σ) ops).hasThisChild p c = true ↔ ((log [] ops).filter (fun e => e.pair = (p, c))).head? = some (.added p c)) ∧
    ((run ([] : NodeHeap σ) ops).isChildOf c (some p) = true ↔ ((log [] ops).filter (fun e => e.child = c)).head? = some (.added p c)) := by
  obtain ⟨h1, h2⟩ := run_events ops ([] : NodeHeap σ) ⟨by simp, by simp⟩ p c
  rw [hasThisChild_iff (stored_run ops), isChildOf_iff, h1, h2]
  constructor
  · cases (log ([] : NodeHeap σ) ops).filter (fun e => e.pair = (p, c)) with
    | nil => simp [Chi]
    | cons e l => simp
  · cases (log ([] : NodeHeap σ) ops).filter (fun e => e.child = c) with
    | nil => simp [Par]
    | cons e l => simp

end

/-- a child moved to a second parent and then deleted from the first: it stays with the second, but has no parent link -/
example : let ops : List (NodeHeap.Op Nat) := [.create 0 [], .create 1 [], .create 2 [], .addChild 0 2, .addChild 1 2, .deleteChild 0 2]
    log ([] : NodeHeap Nat) ops = [.removed 0 2, .added 1 2, .added 0 2] ∧ (run ([] : NodeHeap Nat) ops).hasThisChild 1 2 = true ∧
    (run ([] : NodeHeap Nat) ops).isChildOf 2 (some 1) = false ∧ (run ([] : NodeHeap Nat) ops).isChildOf 2 none = true := by decide +kernel

end Verif

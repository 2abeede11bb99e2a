import Verif.Props.Selector
import Verif.Lemmas.Pattern
import Verif.Lemmas.Contained
import Verif.Lemmas.Split
/-! Properties C06 - C12: patterns and subgroups. -/
namespace Verif
open Spec

/-! ## histories of a pattern object -/

/-- the mutating operations of a pattern -/
inductive Spec.PatOp
  | add (s : Selector)
  | remove (s : Selector)
  | removeByIndex (i : Int)
  | copy

/-- effect of an operation (a refused index leaves the pattern as it is) -/
def Spec.patStep (p : Pattern) : PatOp → Pattern
  | .add s => p.add s
  | .remove s => p.remove s
  | .removeByIndex i => match p.removeByIndex i with
    | .ok q => q
    | .error _ => p
  | .copy => p.copy

/-- the pattern after `Pattern(init)` and a sequence of operations -/
def Spec.patRun (init : List Selector) (ops : List PatOp) : Pattern := ops.foldl patStep (Pattern.new init)

/-- selectors mentioned by an operation -/
def Spec.PatOp.sels : PatOp → List Selector
  | .add s => [s]
  | .remove s => [s]
  | _ => []

/-- all selectors mentioned by the constructor or an operation -/
def Spec.mentioned (init : List Selector) (ops : List PatOp) : List Selector := init ++ ops.flatMap PatOp.sels

/-- the same history on an abstract set of selectors (a predicate up to `==`): what the caller expects.
Removal by index removes the selector that `get_selector` shows at that index. -/
def Spec.setStep (p : Pattern) (A : Selector → Prop) : PatOp → Selector → Prop
  | .add s => fun x => A x ∨ s.eq x = true
  | .remove s => fun x => A x ∧ ¬ s.eq x = true
  | .removeByIndex i => match p.get i with
    | .ok s => fun x => A x ∧ ¬ s.eq x = true
    | .error _ => A
  | .copy => A

/-- pattern and abstract set side by side -/
def Spec.bothRun (init : List Selector) (ops : List PatOp) : Pattern × (Selector → Prop) :=
  ops.foldl (fun st o => (patStep st.1 o, setStep st.1 st.2 o)) (Pattern.new init, fun x => ∃ s ∈ init, s.eq x = true)

theorem bothRun_fst (init : List Selector) (ops : List PatOp) : (bothRun init ops).1 = patRun init ops := by
  unfold bothRun patRun
  generalize Pattern.new init = p
  generalize (fun x => ∃ s ∈ init, s.eq x = true) = A
  induction ops generalizing p A with
  | nil => rfl
  | cons o os ih => simp only [List.foldl_cons]; exact ih _ _

theorem eqx (s x : Selector) : s.eq x = true ↔ s.key = x.key := Selector.eq_iff_key s x

theorem both_inv {S : Selector → Prop} (hS : Homogeneous S) (init : List Selector) (ops : List PatOp)
    (hm : ∀ s ∈ mentioned init ops, S s) :
    (∀ s ∈ (bothRun init ops).1.sels, S s) ∧ Pattern.Sorted (bothRun init ops).1.sels ∧
    ∀ x, (bothRun init ops).2 x ↔ ∃ t ∈ (bothRun init ops).1.sels, t.key = x.key := by
  have hlt : ∀ a b, S a → S b → (a.lt b = true ↔ a.key < b.key) := fun a b ha hb => Selector.lt_iff_key (hS a b ha hb)
  have step : ∀ (ops : List PatOp) (p : Pattern) (A : Selector → Prop), (∀ o ∈ ops, ∀ s ∈ o.sels, S s) →
      (∀ s ∈ p.sels, S s) → Pattern.Sorted p.sels → (∀ x, A x ↔ ∃ t ∈ p.sels, t.key = x.key) →
      let r := ops.foldl (fun st o => (patStep st.1 o, setStep st.1 st.2 o)) (p, A)
      (∀ s ∈ r.1.sels, S s) ∧ Pattern.Sorted r.1.sels ∧ ∀ x, r.2 x ↔ ∃ t ∈ r.1.sels, t.key = x.key := by
    intro ops
    induction ops with
    | nil => intro p A _ h1 h2 h3; exact ⟨h1, h2, h3⟩
    | cons o os ih =>
      intro p A ho h1 h2 h3
      simp only [List.foldl_cons]
      have hos : ∀ o ∈ os, ∀ s ∈ o.sels, S s := fun o h => ho o (by simp [h])
      cases o with
      | add s =>
        have hs : S s := ho (.add s) (by simp) s (by simp [PatOp.sels])
        obtain ⟨g1, g2, g3⟩ := Pattern.add_spec hlt h1 hs h2
        refine ih _ _ hos (fun t ht => ?_) g2 (fun x => ?_)
        · rcases g1 t ht with h | rfl
          · exact h1 t h
          · exact hs
        · simp only [setStep, patStep, g3, h3, eqx]
      | remove s =>
        have hs : S s := ho (.remove s) (by simp) s (by simp [PatOp.sels])
        obtain ⟨g1, g2⟩ := Pattern.remove_spec hlt h1 hs h2
        refine ih _ _ hos (fun t ht => h1 t ((g2 t).1 ht).1) g1 (fun x => ?_)
        simp only [setStep, patStep, g2, h3, eqx]
        constructor
        · rintro ⟨⟨t, h, hk⟩, hne⟩; exact ⟨t, ⟨h, by rw [hk]; exact Ne.symm hne⟩, hk⟩
        · rintro ⟨t, ⟨h, hne⟩, hk⟩; exact ⟨⟨t, h, hk⟩, by rw [← hk]; exact Ne.symm hne⟩
      | removeByIndex i =>
        simp only [patStep, setStep, Pattern.removeByIndex, Pattern.get]
        cases hi : pyIndex p.sels.length i with
        | none => exact ih _ _ hos h1 h2 h3
        | some k =>
          have hk := Pattern.pyIndex_lt hi
          simp only [List.getElem?_eq_getElem hk]
          obtain ⟨g1, g2⟩ := Pattern.eraseIdx_spec h2 hk
          refine ih _ _ hos (fun t ht => h1 t ((g2 t).1 ht).1) g1 (fun x => ?_)
          simp only [g2, h3, eqx]
          constructor
          · rintro ⟨⟨t, h, hk⟩, hne⟩; exact ⟨t, ⟨h, by rw [hk]; exact Ne.symm hne⟩, hk⟩
          · rintro ⟨t, ⟨h, hne⟩, hk⟩; exact ⟨⟨t, h, hk⟩, by rw [← hk]; exact Ne.symm hne⟩
      | copy => exact ih _ _ hos h1 h2 h3
  have hinit : ∀ s ∈ init, S s := fun s hs => hm s (by simp [mentioned, hs])
  obtain ⟨n1, n2, n3⟩ := Pattern.new_spec hlt hinit
  refine step ops (Pattern.new init) _ (fun o ho s hs => hm s ?_) (fun s hs => hinit s (n2 s hs)) n1 (fun x => ?_)
  · simp only [mentioned, List.mem_append, List.mem_flatMap]
    exact .inr ⟨o, ho, hs⟩
  · simp only [eqx]
    constructor
    · rintro ⟨s, hs, hk⟩
      obtain ⟨t, ht, hk'⟩ := n3 s hs
      exact ⟨t, ht, by rw [hk', hk]⟩
    · rintro ⟨t, ht, hk⟩; exact ⟨t, n2 t ht, hk⟩

theorem run_inv {S : Selector → Prop} (hS : Homogeneous S) (init : List Selector) (ops : List PatOp)
    (hm : ∀ s ∈ mentioned init ops, S s) :
    (∀ s ∈ (patRun init ops).sels, S s) ∧ Pattern.Sorted (patRun init ops).sels := by
  have := both_inv hS init ops hm
  rw [bothRun_fst] at this
  exact ⟨this.1, this.2.1⟩

/-! ## C06 -/

/-- C06: after any history over homogeneous selectors the selectors of a pattern are in strictly increasing order,
hence pairwise different. Heterogeneous selectors: `C06_fails`, `C06_exact`. -/
theorem C06_homogeneous (S : Selector → Prop) (hS : Homogeneous S) (init : List Selector) (ops : List PatOp)
    (hm : ∀ s ∈ mentioned init ops, S s) :
    (patRun init ops).sels.Pairwise (fun a b => a.lt b = true ∧ a.eq b = false) := by
  obtain ⟨h1, h2⟩ := run_inv hS init ops hm
  refine List.Pairwise.imp_of_mem ?_ h2
  intro a b ha hb hab
  refine ⟨(Selector.lt_iff_key (hS a b (h1 a ha) (h1 b hb))).2 hab, ?_⟩
  rw [← Bool.not_eq_true, Selector.eq_iff_key]
  exact hab.ne

/-- selectors never appear out of nothing: those of a pattern were given to the constructor or to an operation -/
theorem C06_provenance (S : Selector → Prop) (hS : Homogeneous S) (init : List Selector) (ops : List PatOp)
    (hm : ∀ s ∈ mentioned init ops, S s) : ∀ s ∈ (patRun init ops).sels, s ∈ mentioned init ops :=
  (run_inv (S := fun s => s ∈ mentioned init ops) (fun a b ha hb => hS a b (hm a ha) (hm b hb)) init ops
    (fun _ h => h)).1

/-- C06: positions. `get_selector(i)` and `remove_selector_by_index(i)` act on the `k`-th selector for `i = k`, and for `i = k - len(p)`
(negative positions count from the end); every other position raises `IndexError`. No hypothesis on the selectors. -/
theorem C06_index (p : Pattern) (i : Int) :
    (∀ (k : Nat) (s : Selector), p.sels[k]? = some s → (i = k ∨ i = (k : Int) - (p.sels.length : Int)) →
      p.get i = .ok s ∧ ∃ q, p.removeByIndex i = .ok q ∧ q.sels = p.sels.take k ++ p.sels.drop (k + 1)) ∧
    ((p.sels.length : Int) ≤ i ∨ i < -(p.sels.length : Int) → p.get i = .error .indexError ∧ p.removeByIndex i = .error .indexError) := by
  constructor
  · intro k s hk hi
    obtain ⟨hlt, -⟩ := List.getElem?_eq_some_iff.1 hk
    have e : pyIndex p.sels.length i = some k := by
      unfold pyIndex
      rcases hi with rfl | rfl
      · rw [if_pos (by omega), Int.toNat_natCast, if_pos hlt]
      · rw [if_neg (by omega), if_pos (by omega)]
        congr 1; omega
    unfold Pattern.get Pattern.removeByIndex
    rw [e]
    simp only [hk, List.eraseIdx_eq_take_drop_succ, true_and]
    exact ⟨_, rfl, rfl⟩
  · intro h
    have e : pyIndex p.sels.length i = none := by
      unfold pyIndex
      rcases h with h | h
      · rw [if_pos (by omega), if_neg (by omega)]
      · rw [if_neg (by omega), if_neg (by omega)]
    unfold Pattern.get Pattern.removeByIndex
    rw [e]
    exact ⟨rfl, rfl⟩

/-- non-vacuity: the last of two selectors, by both positions -/
example : let p := Pattern.new [⟨c!"b", .equal, .int 2⟩, ⟨c!"a", .equal, .str c!"x"⟩]
    p.get 1 = .ok ⟨c!"b", .equal, .int 2⟩ ∧ p.get (-1) = .ok ⟨c!"b", .equal, .int 2⟩ ∧ p.get (-2) = .ok ⟨c!"a", .equal, .str c!"x"⟩ ∧
    p.get 2 = .error .indexError ∧ p.get (-3) = .error .indexError := by decide +kernel

/-- without homogeneity the invariant fails: `Pattern([a=9, a=10, a='5'])` is not increasing -/
theorem C06_fails : ∃ init : List Selector, (∀ s ∈ init, Selector.legal s.op s.val = true) ∧
    ¬ (patRun init []).sels.Pairwise (fun a b => a.lt b = true) :=
  ⟨[⟨c!"a", .equal, .int 9⟩, ⟨c!"a", .equal, .int 10⟩, ⟨c!"a", .equal, .str c!"5"⟩], by decide +kernel, by decide +kernel⟩

/-- non-vacuity: a history with repeated, unsorted and removed selectors over a homogeneous set -/
example : (patRun [⟨c!"b", .equal, .int 2⟩, ⟨c!"a", .equal, .str c!"x"⟩, ⟨c!"b", .equal, .int 2⟩]
    [.add ⟨c!"b", .less, .int 7⟩, .remove ⟨c!"a", .equal, .str c!"x"⟩, .removeByIndex (-1), .add ⟨c!"a", .equal, .str c!"w"⟩]).sels
    = [⟨c!"a", .equal, .str c!"w"⟩, ⟨c!"b", .equal, .int 2⟩] := by decide +kernel

/-! ## C07 -/

/-- C07: after any history over homogeneous selectors, `x in p` holds exactly for the members of the abstract set
that underwent the same history. Heterogeneous selectors: `C07_fails`, `C07_exact`. -/
theorem C07_contains (S : Selector → Prop) (hS : Homogeneous S) (init : List Selector) (ops : List PatOp)
    (hm : ∀ s ∈ mentioned init ops, S s) (x : Selector) (hx : S x) :
    (patRun init ops).contains x = true ↔ (bothRun init ops).2 x := by
  have hlt : ∀ a b, S a → S b → (a.lt b = true ↔ a.key < b.key) := fun a b ha hb => Selector.lt_iff_key (hS a b ha hb)
  obtain ⟨h1, h2, h3⟩ := both_inv hS init ops hm
  rw [bothRun_fst] at h1 h2 h3
  rw [h3, Pattern.contains_iff hlt h1 hx h2]

/-- C07: two patterns with homogeneous histories are `==` exactly when they have the same members;
`!=` is the negation; the length is the number of different members. -/
theorem C07_eq (S : Selector → Prop) (hS : Homogeneous S) (init init' : List Selector) (ops ops' : List PatOp)
    (hm : ∀ s ∈ mentioned init ops, S s) (hm' : ∀ s ∈ mentioned init' ops', S s) :
    ((patRun init ops).eq (patRun init' ops') = true ↔
      ∀ x, S x → ((bothRun init ops).2 x ↔ (bothRun init' ops').2 x)) ∧
    (patRun init ops).ne (patRun init' ops') = !(patRun init ops).eq (patRun init' ops') := by
  obtain ⟨h1, h2, h3⟩ := both_inv hS init ops hm
  obtain ⟨h1', h2', h3'⟩ := both_inv hS init' ops' hm'
  rw [bothRun_fst] at h1 h2 h3 h1' h2' h3'
  refine ⟨?_, Pattern.ne_eq _ _⟩
  rw [Pattern.eq_iff_keys]
  constructor
  · intro h x _
    rw [h3, h3']
    have : ∀ k, k ∈ (patRun init ops).sels.map Selector.key ↔ k ∈ (patRun init' ops').sels.map Selector.key := by
      intro k; rw [h]
    simpa using this x.key
  · intro h
    refine Pattern.sorted_keys_ext h2 h2' (fun k => ?_)
    constructor
    · rintro ⟨t, ht, rfl⟩
      exact (h3' t).1 ((h t (h1 t ht)).1 ((h3 t).2 ⟨t, ht, rfl⟩))
    · rintro ⟨t, ht, rfl⟩
      exact (h3 t).1 ((h t (h1' t ht)).2 ((h3' t).2 ⟨t, ht, rfl⟩))

/-- the order and the repetitions of the constructor list never matter (homogeneous selectors) -/
theorem C07_constructor (S : Selector → Prop) (hS : Homogeneous S) (l l' : List Selector)
    (hl : ∀ s ∈ l, S s) (hl' : ∀ s ∈ l', S s) (h : ∀ s, s ∈ l ↔ s ∈ l') :
    (Pattern.new l).eq (Pattern.new l') = true := by
  have := (C07_eq S hS l l' [] [] (by simpa [mentioned] using hl) (by simpa [mentioned] using hl')).1
  refine this.2 (fun x _ => ?_)
  simp only [bothRun, List.foldl_nil, h]

/-- without homogeneity the order of the constructor list matters -/
theorem C07_fails : ∃ l l' : List Selector, l.Perm l' ∧ (∀ s ∈ l, Selector.legal s.op s.val = true) ∧
    (Pattern.new l).eq (Pattern.new l') = false := by
  refine ⟨[⟨c!"a", .equal, .int 9⟩, ⟨c!"a", .equal, .int 10⟩, ⟨c!"a", .equal, .str c!"5"⟩],
    [⟨c!"a", .equal, .str c!"5"⟩, ⟨c!"a", .equal, .int 9⟩, ⟨c!"a", .equal, .int 10⟩], ?_, by decide +kernel, by decide +kernel⟩
  exact (List.perm_append_comm (l₁ := [_, _]) (l₂ := [_]))

/-! ## C08 -/

/-- C08: when the coverage is computed, it has one entry per row, true exactly for the rows in which every selector matches
(the early stop never changes the answer). -/
theorem C08_coverage (p : Pattern) (df : Frame) (hw : WF df) (m : List Bool) (h : p.isContained df = .ok m) :
    m.length = df.nrows ∧ ∀ i (hi : i < m.length), m[i] = true ↔ Covers df p.sels i := by
  obtain ⟨h1, h2⟩ := containedLoop_spec hw p.sels _ m (by simp) h
  refine ⟨h1, fun i hi => ?_⟩
  rw [h2 i hi (by simp; omega)]
  simp [Covers]

/-- C08: the empty pattern covers all rows -/
theorem C08_empty (df : Frame) : (Pattern.new []).isContained df = .ok (List.replicate df.nrows true) := rfl

/-- C08: nothing is raised when all attributes are present and their cells can be compared with the values of the selectors -/
theorem C08_total (p : Pattern) (df : Frame)
    (h : ∀ s ∈ p.sels, ∃ col, df.cols.lookup s.attr = some col ∧ ∀ v ∈ col, ∃ b, s.op.evaluate v s.val = .ok b) :
    ∃ m, p.isContained df = .ok m := by
  refine containedLoop_ok _ _ (fun s hs => ?_)
  obtain ⟨col, h1, h2⟩ := h s hs
  obtain ⟨m, hm⟩ := mapM_ok_of_all _ col h2
  exact ⟨col, m, by simp [Frame.col, h1], hm⟩

/-- C08: an exception is either the `KeyError` of an absent attribute or the `TypeError` of an impossible comparison -/
theorem C08_errors (p : Pattern) (df : Frame) (e : PyErr) (h : p.isContained df = .error e) :
    (e = .keyError ∧ ∃ s ∈ p.sels, df.cols.lookup s.attr = none) ∨
    (∃ s ∈ p.sels, ∃ col, df.cols.lookup s.attr = some col ∧ ∃ v ∈ col, s.op.evaluate v s.val = .error e) :=
  containedLoop_error _ _ h

/-- C08 (the KeyError clause): a missing attribute is reported if the selectors before it leave some row covered.
When they leave none, the loop stops early and nothing is reported (`C08_fails`, `C08_exact`). -/
theorem C08_keyError (l1 l2 : List Selector) (s : Selector) (df : Frame) (hw : WF df) (m : List Bool)
    (h1 : (⟨l1⟩ : Pattern).isContained df = .ok m) (i : Nat) (hi : i < df.nrows) (hc : Covers df l1 i)
    (hs : df.cols.lookup s.attr = none) : (⟨l1 ++ s :: l2⟩ : Pattern).isContained df = .error .keyError := by
  obtain ⟨g1, g2⟩ := C08_coverage ⟨l1⟩ df hw m h1
  have hm : m[i]'(by omega) = true := (g2 i (by omega)).2 hc
  have hany : m.any id = true := by
    rw [List.any_eq_true]; exact ⟨_, List.getElem_mem _, hm⟩
  show containedLoop df (l1 ++ s :: l2) _ = _
  rw [containedLoop_append l1 (s :: l2) _ m h1 hany, containedLoop, if_pos hany]
  simp [Frame.col, hs]

/-- the KeyError is not raised when an earlier selector already excludes all rows -/
theorem C08_fails : ∃ (l : List Selector) (df : Frame), WF df ∧ (∃ s ∈ l, df.cols.lookup s.attr = none) ∧
    ∃ m, (Pattern.new l).isContained df = .ok m :=
  ⟨[⟨c!"a", .equal, .int 2⟩, ⟨c!"b", .equal, .int 1⟩], ⟨1, [(c!"a", [.int 1])]⟩, by simp [WF],
    ⟨⟨c!"b", .equal, .int 1⟩, by simp, by decide +kernel⟩, [false], by decide +kernel⟩

/-- the same loop selects the rows in `filter_by_list_of_selectors` -/
theorem C08_filterRows (l : List Selector) (df : Frame) (hw : WF df) (rows : List Nat)
    (h : filterByListOfSelectors df l = .ok rows) :
    rows.Pairwise (· < ·) ∧ ∀ i, i ∈ rows ↔ i < df.nrows ∧ Covers df l i := by
  unfold filterByListOfSelectors at h
  split at h
  · cases h
  · rename_i m hm
    cases h
    obtain ⟨h1, h2⟩ := C08_coverage ⟨l⟩ df hw m hm
    refine ⟨List.pairwise_lt_range.filter _, fun i => ?_⟩
    rw [List.mem_filter, List.mem_range]
    refine and_congr_right (fun hi => ?_)
    rw [← h2 i (by omega), List.getElem?_eq_getElem (by omega)]
    simp

/-- non-vacuity of C08 -/
example : (Pattern.new [⟨c!"b", .lessOrEqual, .int 1⟩, ⟨c!"a", .equal, .str c!"x"⟩]).isContained
    ⟨3, [(c!"a", [.str c!"x", .str c!"y", .str c!"x"]), (c!"b", [.int 1, .int 0, .flt (mkFlt 15 (-1))])]⟩
    = .ok [true, false, false] := by decide +kernel

/-! ## C09 -/

/-- C09: refinement is proper inclusion of the selector sets, or equality when `refinement_of_itself` -/
theorem C09_refinement (p q : Pattern) (b : Bool) :
    p.isRefinement q b = true ↔
      (({s | s ∈ p.sels} ⊂ {s | s ∈ q.sels}) ∨ ({s | s ∈ p.sels} = {s | s ∈ q.sels} ∧ b = true)) := by
  rw [Pattern.isRefinement_iff, Set.ssubset_iff_exists]
  simp only [Set.subset_def, Set.mem_ofPred_eq, Set.ext_iff]
  constructor
  · rintro ⟨h1, h2⟩
    by_cases h : ∃ s ∈ q.sels, s ∉ p.sels
    · exact .inl ⟨h1, h⟩
    · rcases h2 with h2 | h2
      · exact absurd h2 h
      · refine .inr ⟨fun s => ⟨h1 s, fun hs => ?_⟩, h2⟩
        by_contra hc
        exact h ⟨s, hs, hc⟩
  · rintro (⟨h1, h2⟩ | ⟨h1, h2⟩)
    · exact ⟨h1, .inl h2⟩
    · exact ⟨fun s hs => (h1 s).1 hs, .inr h2⟩

theorem C09_transitive (p q r : Pattern) (b : Bool) (h1 : p.isRefinement q b = true) (h2 : q.isRefinement r b = true) :
    p.isRefinement r b = true := by
  rw [C09_refinement] at *
  rcases h1 with h1 | ⟨h1, hb⟩
  · rcases h2 with h2 | ⟨h2, _⟩
    · exact .inl (h1.trans h2)
    · exact .inl (h2 ▸ h1)
  · rw [h1]; exact h2

theorem C09_antisymmetric (p q : Pattern) (h1 : p.isRefinement q false = true) : q.isRefinement p false = false := by
  rw [← Bool.not_eq_true, C09_refinement]
  rw [C09_refinement] at h1
  simp only [Bool.false_eq_true, and_false, or_false] at *
  exact fun h => (h.trans h1).ne rfl

theorem C09_reflexive (p : Pattern) (b : Bool) : p.isRefinement p b = b := by
  rw [Bool.eq_iff_iff, C09_refinement]
  simp

/-- C09 for subgroups: refinement of the descriptions and equality of the targets -/
theorem C09_subgroup (s t : Subgroup) (b : Bool) :
    s.isRefinement t b = true ↔ s.description.isRefinement t.description b = true ∧ s.target.eq t.target = true := by
  simp [Subgroup.isRefinement]

example : (Pattern.new [⟨c!"a", .equal, .int 1⟩]).isRefinement
    (Pattern.new [⟨c!"b", .less, .int 3⟩, ⟨c!"a", .equal, .int 1⟩]) false = true := by decide +kernel

/-! ## C10 -/

theorem count_zipWith_le {m n t : List Bool} (hl : m.length = n.length)
    (h : ∀ i (h1 : i < m.length) (h2 : i < n.length), n[i] = true → m[i] = true) :
    (List.zipWith (· && ·) n t).count true ≤ (List.zipWith (· && ·) m t).count true := by
  induction m generalizing n t with
  | nil => cases n with
    | nil => simp
    | cons => simp at hl
  | cons a m ih => cases n with
    | nil => simp at hl
    | cons b n => cases t with
      | nil => simp
      | cons c t =>
        simp only [List.zipWith_cons_cons, List.count_cons]
        have h0 : b = true → a = true := h 0 (by simp) (by simp)
        have := ih (n := n) (t := t) (by simpa using hl) (fun i h1 h2 => h (i + 1) (by simpa using h1) (by simpa using h2))
        cases a <;> cases b <;> cases c <;> simp at * <;> omega

/-- C10: the rows covered by a refinement are among the rows covered by the refined pattern; so for every target the
true positives and the false positives can only decrease. -/
theorem C10_antitone (p q : Pattern) (df : Frame) (hw : WF df) (b : Bool) (hr : p.isRefinement q b = true)
    (mp mq : List Bool) (hp : p.isContained df = .ok mp) (hq : q.isContained df = .ok mq) :
    mp.length = df.nrows ∧ mq.length = df.nrows ∧
    (∀ i (h1 : i < mp.length) (h2 : i < mq.length), mq[i] = true → mp[i] = true) ∧
    ∀ t : List Bool, (List.zipWith (· && ·) mq t).count true ≤ (List.zipWith (· && ·) mp t).count true ∧
      (List.zipWith (· && ·) mq (t.map (!·))).count true ≤ (List.zipWith (· && ·) mp (t.map (!·))).count true := by
  obtain ⟨p1, p2⟩ := C08_coverage p df hw mp hp
  obtain ⟨q1, q2⟩ := C08_coverage q df hw mq hq
  have hsub := ((Pattern.isRefinement_iff p q b).1 hr).1
  have key : ∀ i (h1 : i < mp.length) (h2 : i < mq.length), mq[i] = true → mp[i] = true := by
    intro i h1 h2 h
    rw [p2 i h1]
    exact fun s hs => (q2 i h2).1 h s (hsub s hs)
  exact ⟨p1, q1, key, fun t => ⟨count_zipWith_le (by omega) key, count_zipWith_le (by omega) key⟩⟩

example : ∃ p q df mp mq, WF df ∧ Pattern.isRefinement p q false = true ∧ p.isContained df = .ok mp ∧
    q.isContained df = .ok mq ∧ mq ≠ mp :=
  ⟨⟨[⟨c!"a", .equal, .int 1⟩]⟩, ⟨[⟨c!"a", .equal, .int 1⟩, ⟨c!"b", .equal, .int 1⟩]⟩,
    ⟨2, [(c!"a", [.int 1, .int 1]), (c!"b", [.int 1, .int 0])]⟩, [true, true], [true, false], by simp [WF],
    by decide +kernel, by decide +kernel, by decide +kernel, by decide⟩

end Verif

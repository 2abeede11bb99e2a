import Verif.Lemmas.BSD
/-! BSD: sequences of handled candidates. -/
namespace Verif
open Spec
namespace BSD

/-- what `_BSD` does to the state, in order: candidates handled, candidates skipped because they cover no row, branches pruned -/
inductive Run (v : BSDVariant) (num P : Nat) : BSDState → List BSDEntry → BSDState → Prop
  | nil (st) : Run v num P st [] st
  | handle {st st1 st' e es kept} : handle v num st e (e.bits.take P) (e.bits.drop P) = .ok (st1, kept) → Run v num P st1 es st' → Run v num P st (e :: es) st'
  | skip {st st' es} : Run v num P { st with unselected := st.unselected + 1, skipped := st.skipped + 1 } es st' → Run v num P st es st'
  | prune {st st' es} : Run v num P { st with pruned := st.pruned + 1, unselected := st.unselected + 1, branches := st.branches + 1 } es st' → Run v num P st es st'

theorem Run.trans {v : BSDVariant} {num P : Nat} {st st1 st2 : BSDState} {es es' : List BSDEntry} (h : Run v num P st es st1) (h' : Run v num P st1 es' st2) :
    Run v num P st (es ++ es') st2 := by
  induction h with
  | nil st => exact h'
  | handle h1 _ ih => exact .handle h1 (ih h')
  | skip _ ih => exact .skip (ih h')
  | prune _ ih => exact .prune (ih h')

theorem goodCand {P N : Nat} {e : BSDEntry} (h : RealE (P + N) e) : GoodCand P N ⟨e, e.bits.take P, e.bits.drop P⟩ :=
  ⟨h.1, by simp [h.2.1], by simp [h.2.1], by simp, h.2.2⟩

variable {v : BSDVariant} {num P N : Nat}

/-- the list, the counters and the other fields -/
structure RunSpec (num P N : Nat) (st : BSDState) (es : List BSDEntry) (st' : BSDState) : Prop where
  inv : KInv num (P + N) st'.k
  calls : st'.calls = st.calls ++ es
  visited : st'.visited = st.visited + es.length
  account : st'.unselected + (realEntries st'.k).length + (st.skipped + st.branches) =
    st.unselected + (realEntries st.k).length + es.length + (st'.skipped + st'.branches)
  skipped : st.skipped ≤ st'.skipped
  branches : st.branches ≤ st'.branches
  pruned : st.pruned + st'.branches ≤ st'.pruned + st.branches
  pruned_le : st'.pruned + st.branches ≤ st.pruned + st'.branches + es.length
  mem : ∀ e ∈ realEntries st'.k, e ∈ realEntries st.k ∨ e ∈ es
  selected : st'.selected = st.selected
  file : st'.file = st.file

theorem run_spec (hn : 0 < num) {st st' : BSDState} {es : List BSDEntry} (h : Run v num P st es st') (hk : KInv num (P + N) st.k)
    (he : ∀ e ∈ es, RealE (P + N) e) : RunSpec num P N st es st' := by
  induction h with
  | nil st => exact ⟨hk, by simp, by simp, by simp, le_refl _, le_refl _, le_refl _, by simp, fun e h => Or.inl h, rfl, rfl⟩
  | @handle st st1 st' e es kept h1 _ ih =>
    have hs := (handle_spec (v := v) (st := st) (goodCand (he e (by simp))) hn hk).1 _ _ h1
    have ih := ih hs.inv (fun e' h' => he e' (by simp [h']))
    have hr := hs.rest
    have r1 : st1.calls = st.calls ++ [e] := by rw [hr]
    have r2 : st1.visited = st.visited + 1 := by rw [hr]
    have r3 : st1.skipped = st.skipped := by rw [hr]
    have r4 : st1.branches = st.branches := by rw [hr]
    have r5 : st1.pruned = st.pruned + (if kept then 0 else 1) := by rw [hr]
    have r6 : st1.selected = st.selected := by rw [hr]
    have r7 : st1.file = st.file := by rw [hr]
    have r8 : (if kept = true then 0 else 1) ≤ 1 := by split <;> omega
    have ha := hs.account
    obtain ⟨a0, a1, a2, a3, a4, a5, a6, a6', a7, a8, a9⟩ := ih
    refine ⟨a0, by rw [a1, r1]; simp, by rw [a2, r2]; simp; omega, ?_, by omega, by omega, by omega, by simp only [List.length_cons]; omega, ?_, by rw [a8, r6], by rw [a9, r7]⟩
    · simp only [List.length_cons]
      omega
    · intro e' he'
      rcases a7 e' he' with h | h
      · rcases hs.mem e' h with h | h
        · exact Or.inl h
        · exact Or.inr (by rw [h]; exact List.mem_cons_self)
      · exact Or.inr (by simp [h])
  | skip _ ih =>
    obtain ⟨a0, a1, a2, a3, a4, a5, a6, a6', a7, a8, a9⟩ := ih hk he
    simp only at a3 a4 a5 a6 a6'
    exact ⟨a0, a1, a2, by omega, by omega, by omega, by omega, by omega, a7, a8, a9⟩
  | prune _ ih =>
    obtain ⟨a0, a1, a2, a3, a4, a5, a6, a6', a7, a8, a9⟩ := ih hk he
    simp only at a3 a4 a5 a6 a6'
    exact ⟨a0, a1, a2, by omega, by omega, by omega, by omega, by omega, a7, a8, a9⟩

/-- different descriptions: the entries stay apart -/
theorem run_pairs (hn : 0 < num) {st st' : BSDState} {es : List BSDEntry} (h : Run v num P st es st') (hk : KInv num (P + N) st.k)
    (he : ∀ e ∈ es, RealE (P + N) e) (hd : es.Pairwise (fun a b => a.pat.eq b.pat = false))
    (hd0 : ∀ t ∈ realEntries st.k, ∀ e ∈ es, t.pat.eq e.pat = false) (hp : (realEntries st.k).Pairwise (Apart v P)) :
    (realEntries st'.k).Pairwise (Apart v P) := by
  induction h with
  | nil st => exact hp
  | @handle st st1 st' e es kept h1 _ ih =>
    have hs := (handle_spec (v := v) (st := st) (goodCand (he e (by simp))) hn hk).1 _ _ h1
    have hd' := List.pairwise_cons.1 hd
    refine ih hs.inv (fun e' h' => he e' (by simp [h'])) hd'.2 ?_ (hs.pairs (fun t ht => hd0 t ht e (by simp)) hp)
    intro t ht e' he'
    rcases hs.mem t ht with h | h
    · exact hd0 t h e' (by simp [he'])
    · rw [h]; exact hd'.1 e' he'
  | skip _ ih => exact ih hk he hd hd0 hp
  | prune _ ih => exact ih hk he hd hd0 hp

/-- quality does not decrease under domination, among the given entries -/
def MonoOn (v : BSDVariant) (P : Nat) (A : BSDEntry → Prop) : Prop :=
  v = .bsd → ∀ a b, A a → A b → Dominated P a b → a.quality ≤ b.quality

/-- the best quality never decreases, and each handled candidate is bounded by it -/
theorem run_best (hn : 0 < num) {A : BSDEntry → Prop} (hA : MonoOn v P A) {st st' : BSDState} {es : List BSDEntry} (h : Run v num P st es st')
    (hk : KInv num (P + N) st.k) (he : ∀ e ∈ es, RealE (P + N) e) (h1 : ∀ e ∈ es, A e) (h2 : ∀ e ∈ realEntries st.k, A e) :
    (∀ x, BestGe st x → BestGe st' x) ∧ (∀ e ∈ es, e.quality ≤ e.oe → BestGe st' e.quality) := by
  induction h with
  | nil st => exact ⟨fun _ h => h, by simp⟩
  | @handle st st1 st' e es kept hh _ ih =>
    have hs := (handle_spec (v := v) (st := st) (goodCand (he e (by simp))) hn hk).1 _ _ hh
    have hAe := h1 e (by simp)
    obtain ⟨i1, i2⟩ := ih hs.inv (fun e' h' => he e' (by simp [h'])) (fun e' h' => h1 e' (by simp [h'])) (by
      intro t ht
      rcases hs.mem t ht with h | h
      · exact h2 t h
      · rw [h]; exact hAe)
    constructor
    · rintro x ⟨t, ht, hx⟩
      obtain ⟨t', ht', hx'⟩ := hs.best (fun hv t' ht' hd => hA hv t' e (h2 t' ht') hAe hd) t ht
      exact i1 x ⟨t', ht', hx.trans hx'⟩
    · intro e' he' hq
      rcases List.mem_cons.1 he' with rfl | he'
      · exact i1 _ (hs.bestNew (fun hv t ht hd => hA hv _ t hAe (h2 t ht) hd) hq)
      · exact i2 e' he' hq
  | skip _ ih => exact ih hk he h1 h2
  | prune _ ih => exact ih hk he h1 h2

end BSD
end Verif

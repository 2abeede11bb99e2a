import Verif.Spec.Coverage
/-! `str.split` on a separator whose first character does not recur. -/
namespace Verif
open Spec

theorem dropPrefix_self (p s : Str) : dropPrefix? p (p ++ s) = some s := by
  induction p with
  | nil => rfl
  | cons a p ih => simp [dropPrefix?, ih]

theorem dropPrefix_some {p s r : Str} (h : dropPrefix? p s = some r) : s = p ++ r := by
  induction p generalizing s with
  | nil => simp [dropPrefix?] at h; simp [h]
  | cons a p ih =>
    cases s with
    | nil => simp [dropPrefix?] at h
    | cons b s =>
      simp only [dropPrefix?] at h
      split at h
      · rename_i hab; subst hab; simp [ih h]
      · cases h

theorem dropPrefix_none {sep s : Str} (h : ¬ Occurs sep s) : dropPrefix? sep s = none := by
  cases hd : dropPrefix? sep s with
  | none => rfl
  | some r => exact absurd ⟨[], r, by simp [dropPrefix_some hd]⟩ h

theorem Occurs_cons {sep s : Str} {c : Char} (h : Occurs sep s) : Occurs sep (c :: s) := by
  obtain ⟨a, b, rfl⟩ := h
  exact ⟨c :: a, b, by simp⟩

/-- no match starts inside `a` when `sep = c :: sep'` with `c ∉ sep'` and `sep` does not occur in `a` -/
theorem dropPrefix_cross {c : Char} {sep' : Str} (hc : c ∉ sep') {a : Str} (hne : a ≠ []) (h : ¬ Occurs (c :: sep') a) (b : Str) :
    dropPrefix? (c :: sep') (a ++ (c :: sep') ++ b) = none := by
  cases hd : dropPrefix? (c :: sep') (a ++ (c :: sep') ++ b) with
  | none => rfl
  | some r =>
    exfalso
    have heq := dropPrefix_some hd
    rw [List.append_assoc] at heq
    obtain ⟨x, a', rfl⟩ := List.exists_cons_of_ne_nil hne
    by_cases hl : (c :: sep').length ≤ (x :: a').length
    · apply h
      obtain ⟨w, hw⟩ : ∃ w, x :: a' = (c :: sep') ++ w := by
        have hp : (c :: sep') <+: (x :: a') ++ ((c :: sep') ++ b) := ⟨r, heq.symm⟩
        have hp2 : (x :: a') <+: (x :: a') ++ ((c :: sep') ++ b) := ⟨_, rfl⟩
        obtain ⟨w, hw⟩ := List.prefix_of_prefix_length_le hp hp2 hl
        exact ⟨w, hw.symm⟩
      exact ⟨[], w, by simp [hw]⟩
    · -- the first character of the separator falls inside `sep'`
      simp only [List.cons_append, List.length_cons, List.cons.injEq, Nat.not_le] at heq hl
      obtain ⟨_, heq⟩ := heq
      have hlt : a'.length < sep'.length := by omega
      have h1 : (a' ++ c :: (sep' ++ b))[a'.length]? = some c := by simp
      rw [heq, List.getElem?_append_left hlt, List.getElem?_eq_some_iff] at h1
      obtain ⟨_, h1⟩ := h1
      exact hc (h1 ▸ List.getElem_mem _)

theorem splitOnAux_fuel (sep : Str) (f g : Nat) (s acc : Str) (hsep : sep ≠ []) (hf : s.length < f) (hg : s.length < g) :
    splitOnAux sep f s acc = splitOnAux sep g s acc := by
  induction f generalizing g s acc with
  | zero => omega
  | succ f ih =>
    cases g with
    | zero => omega
    | succ g =>
      cases s with
      | nil => rfl
      | cons c cs =>
        simp only [splitOnAux]
        split
        · rename_i rest hr
          have := congrArg List.length (dropPrefix_some hr)
          simp only [List.length_append, List.length_cons] at this hf hg
          have := List.length_pos_iff.2 hsep
          rw [ih g rest [] (by omega) (by omega)]
        · simp only [List.length_cons] at hf hg
          exact ih g cs _ (by omega) (by omega)

theorem splitOnAux_none (sep : Str) (f : Nat) (s acc : Str) (h : ¬ Occurs sep s) :
    splitOnAux sep f s acc = [acc.reverse ++ s] := by
  induction f generalizing s acc with
  | zero => rfl
  | succ f ih =>
    cases s with
    | nil => simp [splitOnAux]
    | cons c cs =>
      simp only [splitOnAux, dropPrefix_none h]
      rw [ih cs (c :: acc) (fun ho => h (Occurs_cons ho))]
      simp

/-- no separator: one piece -/
theorem splitOn_none {sep s : Str} (h : ¬ Occurs sep s) : splitOn sep s = [s] := by
  unfold splitOn; rw [splitOnAux_none _ _ _ _ h]; simp

theorem splitOnAux_first {c : Char} {sep' : Str} (hc : c ∉ sep') (f : Nat) (a b acc : Str) (h : ¬ Occurs (c :: sep') a)
    (hf : (a ++ (c :: sep') ++ b).length < f) :
    splitOnAux (c :: sep') f (a ++ (c :: sep') ++ b) acc = (acc.reverse ++ a) :: splitOn (c :: sep') b := by
  induction a generalizing f acc with
  | nil =>
    cases f with
    | zero => omega
    | succ f =>
      have hd : dropPrefix? (c :: sep') (c :: (sep' ++ b)) = some b := dropPrefix_self (c :: sep') b
      simp only [List.nil_append, List.cons_append, splitOnAux, hd, List.append_nil, List.cons.injEq, true_and]
      unfold splitOn
      simp only [List.nil_append, List.cons_append, List.length_cons, List.length_append] at hf
      exact splitOnAux_fuel _ _ _ _ _ (by simp) (by omega) (by omega)
  | cons x a ih =>
    cases f with
    | zero => omega
    | succ f =>
      have hd := dropPrefix_cross hc (a := x :: a) (by simp) h b
      simp only [List.cons_append] at hd
      simp only [List.cons_append, splitOnAux, hd]
      have := ih f (x :: acc) (fun ho => h (Occurs_cons ho)) (by simp at hf ⊢; omega)
      simp only [List.append_assoc, List.cons_append, List.reverse_cons, List.nil_append] at this ⊢
      exact this

/-- the first piece ends at the first separator -/
theorem splitOn_first {c : Char} {sep' : Str} (hc : c ∉ sep') (a b : Str) (h : ¬ Occurs (c :: sep') a) :
    splitOn (c :: sep') (a ++ (c :: sep') ++ b) = a :: splitOn (c :: sep') b := by
  have := splitOnAux_first hc ((a ++ (c :: sep') ++ b).length + 1) a b [] h (by omega)
  simpa [splitOn] using this

end Verif

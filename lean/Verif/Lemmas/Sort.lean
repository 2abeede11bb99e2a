import Verif.Model.Py
import Mathlib.Data.List.Sort
/-! The stable sort. -/
namespace Verif
variable {α : Type} {le : α → α → Bool}

theorem sortedInsert_eq (a : α) (l : List α) : sortedInsert le a l = l.orderedInsert (fun a b => le a b = true) a := by
  induction l with
  | nil => rfl
  | cons b l ih => simp only [sortedInsert, List.orderedInsert, ih]

theorem stableSort_eq (l : List α) : stableSort le l = l.insertionSort (fun a b => le a b = true) := by
  unfold stableSort
  induction l with
  | nil => rfl
  | cons a l ih => simp only [List.foldr_cons, List.insertionSort_cons, ih, sortedInsert_eq]

theorem stableSort_perm (l : List α) : (stableSort le l).Perm l := by
  rw [stableSort_eq]; exact List.perm_insertionSort _ _

theorem pairwise_stableSort (trans : ∀ a b c, le a b = true → le b c = true → le a c = true)
    (total : ∀ a b, (le a b || le b a) = true) (l : List α) : (stableSort le l).Pairwise (fun a b => le a b = true) := by
  rw [stableSort_eq]
  haveI : Std.Total (fun a b => le a b = true) := ⟨fun a b => by simpa [Bool.or_eq_true] using total a b⟩
  haveI : IsTrans α (fun a b => le a b = true) := ⟨trans⟩
  exact List.pairwise_insertionSort _ _

theorem pair_sublist_stableSort (trans : ∀ a b c, le a b = true → le b c = true → le a c = true)
    (total : ∀ a b, (le a b || le b a) = true) {a b : α} {l : List α} (hab : le a b = true) (h : [a, b].Sublist l) :
    [a, b].Sublist (stableSort le l) := by
  rw [stableSort_eq]
  haveI : Std.Total (fun a b => le a b = true) := ⟨fun a b => by simpa [Bool.or_eq_true] using total a b⟩
  haveI : IsTrans α (fun a b => le a b = true) := ⟨trans⟩
  exact List.pair_sublist_insertionSort hab h

end Verif

import Verif.Model.Bits
import Mathlib.Tactic.Linarith
import Mathlib.Data.List.Induction
import Mathlib.Data.List.Nodup
/-! Lemmas about bit lists. -/
namespace Verif
theorem Bits.get_and (a b : Bits) (i : Nat) : (a.and b).get i = (a.get i && b.get i) := by
  unfold Bits.and Bits.get
  induction a generalizing b i with
  | nil => simp
  | cons x a ih => cases b with
    | nil => simp
    | cons y b => cases i with
      | zero => simp
      | succ i => simpa using ih b i

theorem Bits.get_or (a b : Bits) (i : Nat) (h : a.length = b.length) : (a.or b).get i = (a.get i || b.get i) := by
  unfold Bits.or Bits.get
  induction a generalizing b i with
  | nil => cases b with
    | nil => simp
    | cons _ _ => simp at h
  | cons x a ih => cases b with
    | nil => simp at h
    | cons y b => cases i with
      | zero => simp
      | succ i => simpa using ih b i (by simpa using h)

theorem Bits.get_not (a : Bits) (i : Nat) : a.not.get i = (decide (i < a.length) && !a.get i) := by
  unfold Bits.not Bits.get
  induction a generalizing i with
  | nil => simp
  | cons x a ih => cases i with
    | zero => simp
    | succ i => simpa using ih i

theorem Bits.get_ge (a : Bits) (i : Nat) (h : a.length ≤ i) : a.get i = false := by
  unfold Bits.get
  simp [List.getD_eq_getElem?_getD, List.getElem?_eq_none h]

theorem Bits.get_lt (a : Bits) (i : Nat) (h : i < a.length) : a.get i = a[i] := by
  unfold Bits.get
  simp [List.getD_eq_getElem?_getD, h]

theorem Bits.ext {a b : Bits} (hl : a.length = b.length) (h : ∀ i, a.get i = b.get i) : a = b := by
  apply List.ext_getElem hl
  intro i h1 h2
  have := h i
  rwa [Bits.get_lt _ _ h1, Bits.get_lt _ _ h2] at this

theorem Bits.len_and (a b : Bits) : (a.and b).length = min a.length b.length := by simp [Bits.and]
theorem Bits.len_or (a b : Bits) : (a.or b).length = min a.length b.length := by simp [Bits.or]
theorem Bits.len_not (a : Bits) : a.not.length = a.length := by simp [Bits.not]

theorem ones_split (a b : Bits) (h : a.length = b.length) : (a.and (b.and a).not).ones + (b.and a).ones = a.ones := by
  unfold Bits.and Bits.not Bits.ones
  induction a generalizing b with
  | nil => simp
  | cons x a ih => cases b with
    | nil => simp at h
    | cons y b => have := ih b (by simpa using h); simp only [List.map_zipWith] at this; cases x <;> cases y <;> simp [List.map_zipWith] at * <;> omega

/-- a bit list and an enumeration without repetition of its set positions -/
theorem Bits.ones_eq_length (b : Bits) (l : List Nat) (hl : l.Nodup) (h : ∀ i, i ∈ l ↔ b.get i = true) : b.ones = l.length := by
  have e : b.ones = ((List.range b.length).filter (fun i => b.get i)).length := by
    clear h hl l
    unfold Bits.ones
    induction b with
    | nil => simp
    | cons x a ih =>
      rw [List.length_cons, List.range_succ_eq_map, List.filter_cons, List.filter_map, List.count_cons, ih]
      have e : ((List.range a.length).filter ((fun i => Bits.get (x :: a) i) ∘ Nat.succ)) =
        (List.range a.length).filter (fun i => Bits.get a i) := rfl
      rw [e]
      cases x <;> simp [Bits.get]
  rw [e]
  have hnd : ((List.range b.length).filter (fun i => b.get i)).Nodup := List.Nodup.filter _ List.nodup_range
  apply (List.perm_ext_iff_of_nodup hnd hl |>.2 _).length_eq
  intro i
  rw [List.mem_filter, List.mem_range, h]
  constructor
  · exact fun h => h.2
  · intro hi
    refine ⟨?_, hi⟩
    by_contra hc
    rw [Bits.get_ge _ _ (by omega)] at hi
    cases hi

end Verif

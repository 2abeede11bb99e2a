import Verif.Model.Py
import Mathlib.Order.Basic
import Mathlib.Order.Lattice
import Mathlib.Data.List.Sort
/-! Binary search, binary insertion, for an `lt` that follows a linear order of keys. -/
namespace Verif

theorem bisectLoop_spec (p : Nat → Bool) (lo hi : Nat) (h : lo ≤ hi)
    (mono : ∀ i j, lo ≤ i → i ≤ j → j < hi → p j = true → p i = true) :
    lo ≤ bisectLoop p lo hi ∧ bisectLoop p lo hi ≤ hi ∧
    (∀ i, lo ≤ i → i < bisectLoop p lo hi → p i = true) ∧
    (∀ i, bisectLoop p lo hi ≤ i → i < hi → p i = false) := by
  fun_induction bisectLoop p lo hi with
  | case1 lo hi h1 mid hp ih =>
    obtain ⟨h2, h3, h4, h5⟩ := ih (by omega) (fun i j hi hij hj => mono i j (by omega) hij hj)
    refine ⟨by omega, h3, fun i hi1 hi2 => ?_, h5⟩
    by_cases hc : i ≤ mid
    · exact mono i mid hi1 hc (by omega) hp
    · exact h4 i (by omega) hi2
  | case2 lo hi h1 mid hp ih =>
    obtain ⟨h2, h3, h4, h5⟩ := ih (by omega) (fun i j hi hij hj => mono i j hi hij (by omega))
    refine ⟨h2, by omega, h4, fun i hi1 hi2 => ?_⟩
    by_cases hc : i < mid
    · exact h5 i hi1 hc
    · cases hpi : p i with
      | false => rfl
      | true => exact absurd (mono mid i (by omega) (by omega) hi2 hpi) hp
  | case3 lo hi h1 =>
    exact ⟨Nat.le_refl _, h, fun i h2 h3 => by omega, fun i h2 h3 => by omega⟩

section
variable {α κ : Type} [LinearOrder κ] (key : α → κ) (S : α → Prop) (lt : α → α → Bool)
  (hlt : ∀ a b, S a → S b → (lt a b = true ↔ key a < key b))
include hlt

/-- `bisect_left` on a sorted list: everything before is smaller, everything from there on is not. -/
theorem bisectLeft_spec {l : List α} {x : α} (hl : ∀ a ∈ l, S a) (hx : S x)
    (hs : l.Pairwise (fun a b => key a ≤ key b)) :
    bisectLeft lt l x ≤ l.length ∧
    (∀ i (h : i < l.length), i < bisectLeft lt l x → key l[i] < key x) ∧
    (∀ i (h : i < l.length), bisectLeft lt l x ≤ i → key x ≤ key l[i]) := by
  have hp : ∀ i (h : i < l.length), ((match l[i]? with | some y => lt y x | none => false) = true ↔ key l[i] < key x) := by
    intro i h
    rw [List.getElem?_eq_getElem h]
    exact hlt _ _ (hl _ (List.getElem_mem h)) hx
  obtain ⟨_, h2, h3, h4⟩ := bisectLoop_spec (fun i => match l[i]? with | some y => lt y x | none => false) 0 l.length
    (by omega) (fun i j _ hij hj hpj => by
      have h1 := (hp j hj).1 hpj
      refine (hp i (by omega)).2 (lt_of_le_of_lt ?_ h1)
      rcases Nat.lt_or_eq_of_le hij with h | h
      · exact List.pairwise_iff_getElem.1 hs i j (by omega) hj h
      · subst h; exact le_refl _)
  refine ⟨h2, fun i h hi => (hp i h).1 (h3 i (by omega) hi), fun i h hi => ?_⟩
  have := h4 i hi h
  rw [← not_lt]
  intro hc
  rw [(hp i h).2 hc] at this
  cases this

omit hlt in
theorem insertIdx_perm {l : List α} {i : Nat} (h : i ≤ l.length) (x : α) : (l.insertIdx i x).Perm (x :: l) :=
  List.perm_insertIdx x l h

omit hlt in
/-- inserting at a position that separates smaller from greater keeps a list sorted -/
theorem insertIdx_pairwise {R : α → α → Prop} {l : List α} {i : Nat} (hi : i ≤ l.length) {x : α} (hs : l.Pairwise R)
    (h1 : ∀ j (h : j < l.length), j < i → R l[j] x) (h2 : ∀ j (h : j < l.length), i ≤ j → R x l[j]) :
    (l.insertIdx i x).Pairwise R := by
  induction l generalizing i with
  | nil =>
    have : i = 0 := by simpa using hi
    subst this; simp
  | cons a l ih =>
    cases i with
    | zero =>
      simp only [List.insertIdx_zero, List.pairwise_cons]
      refine ⟨fun b hb => ?_, List.pairwise_cons.1 hs⟩
      obtain ⟨j, hj, rfl⟩ := List.getElem_of_mem hb
      exact h2 j hj (Nat.zero_le _)
    | succ i =>
      simp only [List.insertIdx_succ_cons, List.pairwise_cons]
      have hs' := List.pairwise_cons.1 hs
      have hi' : i ≤ l.length := by simpa using hi
      refine ⟨fun b hb => ?_, ih hi' hs'.2 (fun j h hj => ?_) (fun j h hj => ?_)⟩
      · rcases List.mem_cons.1 ((insertIdx_perm hi' x).mem_iff.1 hb) with rfl | hb
        · exact h1 0 (by simp) (by omega)
        · exact hs'.1 b hb
      · exact h1 (j + 1) (by simpa using h) (by omega)
      · exact h2 (j + 1) (by simpa using h) (by omega)

theorem binaryInsert_spec {l : List α} {x : α} (hl : ∀ a ∈ l, S a) (hx : S x)
    (hs : l.Pairwise (fun a b => key a ≤ key b)) :
    (binaryInsert lt l x).Perm (x :: l) ∧ (binaryInsert lt l x).Pairwise (fun a b => key a ≤ key b) := by
  have hp : ∀ i (h : i < l.length), ((match l[i]? with | some y => !(lt x y) | none => false) = true ↔ key l[i] ≤ key x) := by
    intro i h
    rw [List.getElem?_eq_getElem h]
    simp only [Bool.not_eq_true', ← Bool.not_eq_true]
    rw [hlt _ _ hx (hl _ (List.getElem_mem h)), not_lt]
  obtain ⟨_, h2, h3, h4⟩ := bisectLoop_spec (fun i => match l[i]? with | some y => !(lt x y) | none => false) 0 l.length
    (by omega) (fun i j _ hij hj hpj => by
      have h1 := (hp j hj).1 hpj
      refine (hp i (by omega)).2 (le_trans ?_ h1)
      rcases Nat.lt_or_eq_of_le hij with h | h
      · exact List.pairwise_iff_getElem.1 hs i j (by omega) hj h
      · subst h; exact le_refl _)
  refine ⟨insertIdx_perm h2 x, insertIdx_pairwise h2 hs (fun j h hj => (hp j h).1 (h3 j (by omega) hj)) (fun j h hj => ?_)⟩
  have := h4 j hj h
  by_contra hc
  rw [(hp j h).2 (le_of_lt (not_le.1 hc))] at this
  cases this

theorem foldl_binaryInsert_spec {l acc : List α} (hl : ∀ a ∈ l, S a) (hacc : ∀ a ∈ acc, S a)
    (hs : acc.Pairwise (fun a b => key a ≤ key b)) :
    (l.foldl (binaryInsert lt) acc).Perm (acc ++ l) ∧
    (l.foldl (binaryInsert lt) acc).Pairwise (fun a b => key a ≤ key b) := by
  induction l generalizing acc with
  | nil => simp [hs]
  | cons x l ih =>
    obtain ⟨h1, h2⟩ := binaryInsert_spec key S lt hlt hacc (hl x (by simp)) hs
    obtain ⟨h3, h4⟩ := ih (acc := binaryInsert lt acc x) (fun a ha => hl a (by simp [ha])) (fun a ha => by
      rcases List.mem_cons.1 (h1.mem_iff.1 ha) with rfl | ha
      · exact hl _ (by simp)
      · exact hacc a ha) h2
    refine ⟨h3.trans ?_, h4⟩
    refine (h1.append_right l).trans ?_
    simpa using (List.perm_middle (a := x) (l₁ := acc) (l₂ := l)).symm

omit hlt in
theorem takeRun_append (down : Bool) (prev : α) (l : List α) : (takeRun lt down prev l).1 ++ (takeRun lt down prev l).2 = l := by
  induction l generalizing prev with
  | nil => rfl
  | cons x l ih =>
    unfold takeRun
    by_cases h : (lt x prev == down) = true
    · rw [if_pos h]; simp [ih x]
    · rw [if_neg h]; rfl

omit hlt in
theorem countRun_perm (l : List α) : ((countRun lt l).1 ++ (countRun lt l).2).Perm l := by
  match l with
  | [] => simp [countRun]
  | [a] => simp [countRun]
  | a :: b :: l =>
    simp only [countRun]
    split
    · refine ((List.reverse_perm _).append_right _).trans ?_
      rw [List.cons_append, takeRun_append]
    · rw [List.cons_append, takeRun_append]

theorem takeRun_up {prev : α} {l : List α} (hp : S prev) (hl : ∀ a ∈ l, S a) : (prev :: (takeRun lt false prev l).1).Pairwise (fun a b => key a ≤ key b) := by
  induction l generalizing prev with
  | nil => simp [takeRun]
  | cons x l ih =>
    unfold takeRun
    by_cases h : (lt x prev == false) = true
    · rw [if_pos h]
      have hx := hl x (by simp)
      have ih' := ih hx (fun a ha => hl a (by simp [ha]))
      have hle : key prev ≤ key x := by
        rw [← not_lt, ← hlt x prev hx hp]
        simpa using h
      refine List.pairwise_cons.2 ⟨fun b hb => ?_, ih'⟩
      rcases List.mem_cons.1 hb with rfl | hb
      · exact hle
      · exact le_trans hle ((List.pairwise_cons.1 ih').1 b hb)
    · rw [if_neg h]; simp

theorem takeRun_down {prev : α} {l : List α} (hp : S prev) (hl : ∀ a ∈ l, S a) : (prev :: (takeRun lt true prev l).1).Pairwise (fun a b => key b ≤ key a) := by
  induction l generalizing prev with
  | nil => simp [takeRun]
  | cons x l ih =>
    unfold takeRun
    by_cases h : (lt x prev == true) = true
    · rw [if_pos h]
      have hx := hl x (by simp)
      have ih' := ih hx (fun a ha => hl a (by simp [ha]))
      have hle : key x ≤ key prev := le_of_lt ((hlt x prev hx hp).1 (by simpa using h))
      refine List.pairwise_cons.2 ⟨fun b hb => ?_, ih'⟩
      rcases List.mem_cons.1 hb with rfl | hb
      · exact hle
      · exact le_trans ((List.pairwise_cons.1 ih').1 b hb) hle
    · rw [if_neg h]; simp

/-- the first run is sorted -/
theorem countRun_sorted {l : List α} (hl : ∀ a ∈ l, S a) : (countRun lt l).1.Pairwise (fun a b => key a ≤ key b) := by
  match l with
  | [] => simp [countRun]
  | [a] => simp [countRun]
  | a :: b :: l =>
    simp only [countRun]
    split
    · rw [List.pairwise_reverse]
      exact takeRun_down key S lt hlt (hl a (by simp)) (fun x hx => hl x (by simp at hx ⊢; tauto))
    · exact takeRun_up key S lt hlt (hl a (by simp)) (fun x hx => hl x (by simp at hx ⊢; tauto))

/-- the result of the sort is a sorted permutation -/
theorem pySort_spec {l : List α} (hl : ∀ a ∈ l, S a) :
    (pySort lt l).Perm l ∧ (pySort lt l).Pairwise (fun a b => key a ≤ key b) := by
  have hp := countRun_perm lt l
  have hm : ∀ a, a ∈ (countRun lt l).1 ++ (countRun lt l).2 → S a := fun a ha => hl a (hp.mem_iff.1 ha)
  obtain ⟨h1, h2⟩ := foldl_binaryInsert_spec key S lt hlt (acc := (countRun lt l).1) (l := (countRun lt l).2) (fun a ha => hm a (by simp [ha])) (fun a ha => hm a (by simp [ha]))
    (countRun_sorted key S lt hlt hl)
  exact ⟨h1.trans hp, h2⟩

end
end Verif

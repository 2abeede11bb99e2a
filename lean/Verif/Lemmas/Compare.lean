import Verif.Model.Compare
import Verif.Lemmas.SpecialFloats
/-! Sorting with a comparison that may fail. -/
namespace Verif
namespace Compare

section
variable {α : Type} {lt : α → α → Except PyErr Bool} {q : α → α → Bool} {S : α → Prop}

theorem takeRunE_ok (h : ∀ x y, S x → S y → lt x y = .ok (q x y)) (d : Bool) (prev : α) (l : List α) (hp : S prev) (hl : ∀ x ∈ l, S x) :
    takeRunE lt d prev l = .ok (takeRun q d prev l) := by
  induction l generalizing prev with
  | nil => rfl
  | cons x l ih =>
    have hx : S x := hl x (by simp)
    unfold takeRunE takeRun
    simp only [h x prev hx hp]
    by_cases hd : q x prev = d
    · simp only [hd, if_true, ih x hx (fun y hy => hl y (by simp [hy])), beq_self_eq_true]
    · rw [if_neg hd, if_neg (by simpa using hd)]

theorem countRunE_ok (h : ∀ x y, S x → S y → lt x y = .ok (q x y)) (l : List α) (hl : ∀ x ∈ l, S x) :
    countRunE lt l = .ok (countRun q l) := by
  match l with
  | [] => rfl
  | [a] => rfl
  | a :: b :: l =>
    have ha : S a := hl a (by simp)
    have hb : S b := hl b (by simp)
    have ht := fun d => takeRunE_ok h d a (b :: l) ha (fun x hx => hl x (by simp at hx ⊢; tauto))
    unfold countRunE countRun
    simp only [h b a hb ha]
    cases hq : q b a <;> simp [ht]

theorem bisectE_ok {p : Nat → Except PyErr Bool} {r : Nat → Bool} (hi : Nat) : ∀ (n lo : Nat), hi - lo = n → (∀ i, lo ≤ i → i < hi → p i = .ok (r i)) →
    bisectE p lo hi = .ok (bisectLoop r lo hi) := by
  intro n
  induction n using Nat.strongRecOn generalizing hi with
  | _ n ih =>
    intro lo hn h
    rw [bisectE, bisectLoop]
    by_cases hlt : lo < hi
    · rw [dif_pos hlt, dif_pos hlt, h ((lo + hi) / 2) (by omega) (by omega)]
      cases hr : r ((lo + hi) / 2)
      · simp only [hr, Bool.false_eq_true, if_false]
        exact ih ((lo + hi) / 2 - lo) (by omega) _ lo rfl (fun i h1 h2 => h i h1 (by omega))
      · simp only [hr, if_true]
        exact ih (hi - ((lo + hi) / 2 + 1)) (by omega) _ _ rfl (fun i h1 h2 => h i (by omega) h2)
    · rw [dif_neg hlt, dif_neg hlt]

theorem insertE_ok (h : ∀ x y, S x → S y → lt x y = .ok (q x y)) (a : List α) (x : α) (hx : S x) (ha : ∀ y ∈ a, S y) :
    insertE lt a x = .ok (binaryInsert q a x) := by
  unfold insertE binaryInsert
  have := bisectE_ok (p := pivotE lt a x) (r := fun i => match a[i]? with | some y => !(q x y) | none => false) a.length _ 0 rfl ?_
  · simp only [this]; rfl
  intro i _ hi
  simp only [pivotE, List.getElem?_eq_getElem hi, h x a[i] hx (ha _ (List.getElem_mem hi)), Except.map]

theorem mem_insertAt {l : List α} {x y : α} {i : Nat} (h : y ∈ l.insertIdx i x) : y = x ∨ y ∈ l := by
  by_cases hi : i ≤ l.length
  · exact (List.mem_insertIdx hi).1 h
  · rw [List.insertIdx_of_length_lt (Nat.lt_of_not_le hi)] at h; exact Or.inr h

theorem mem_insert {l : List α} {x y : α} (h : y ∈ binaryInsert q l x) : y = x ∨ y ∈ l := mem_insertAt h

theorem insertAllE_ok (h : ∀ x y, S x → S y → lt x y = .ok (q x y)) (l a : List α) (ha : ∀ y ∈ a, S y) (hl : ∀ y ∈ l, S y) :
    insertAllE lt a l = .ok (l.foldl (binaryInsert q) a) := by
  induction l generalizing a with
  | nil => rfl
  | cons x l ih =>
    unfold insertAllE
    simp only [insertE_ok h a x (hl x (by simp)) ha, List.foldl_cons]
    exact ih _ (fun y hy => (mem_insert hy).elim (fun e => e ▸ hl x (by simp)) (ha y)) (fun y hy => hl y (by simp [hy]))

theorem mem_countRun {l : List α} {x : α} : x ∈ (countRun q l).1 ∨ x ∈ (countRun q l).2 ↔ x ∈ l := by
  rw [← List.mem_append]
  exact (countRun_perm q l).mem_iff

theorem sortE_ok (h : ∀ x y, S x → S y → lt x y = .ok (q x y)) (l : List α) (hl : ∀ x ∈ l, S x) : sortE lt l = .ok (pySort q l) := by
  unfold sortE pySort
  simp only [countRunE_ok h l hl]
  exact insertAllE_ok h _ _ (fun y hy => hl y (mem_countRun.1 (Or.inl hy))) (fun y hy => hl y (mem_countRun.1 (Or.inr hy)))

/-! ### what a successful sort tells about the elements -/

variable {R : α → α → Prop} (hok : ∀ x y r, lt x y = .ok r → R x y) (hs : ∀ x y, R x y → R y x) (ht : ∀ x y z, R x y → R y z → R x z)
include hok hs ht

theorem takeRunE_related {d : Bool} {prev : α} {l run rest : List α} (h : takeRunE lt d prev l = .ok (run, rest)) :
    (∀ x ∈ run, R prev x) ∧ run ++ rest = l := by
  induction l generalizing prev run with
  | nil => simp only [takeRunE, Except.ok.injEq, Prod.mk.injEq] at h; simp [← h.1, ← h.2]
  | cons x l ih =>
    unfold takeRunE at h
    cases hx : lt x prev with
    | error e => rw [hx] at h; cases h
    | ok r =>
      simp only [hx] at h
      by_cases hr : r = d
      · rw [if_pos hr] at h
        cases hb : takeRunE lt d x l with
        | error e => rw [hb] at h; cases h
        | ok t =>
          obtain ⟨run', rest'⟩ := t
          simp only [hb, Except.ok.injEq, Prod.mk.injEq] at h
          obtain ⟨h1, rfl⟩ := h
          obtain ⟨h2, h3⟩ := ih hb
          rw [← h1]
          refine ⟨?_, by simp [h3]⟩
          intro y hy
          rcases List.mem_cons.1 hy with rfl | hy
          · exact hs _ _ (hok _ _ _ hx)
          · exact ht _ _ _ (hs _ _ (hok _ _ _ hx)) (h2 y hy)
      · rw [if_neg hr] at h
        simp only [Except.ok.injEq, Prod.mk.injEq] at h
        simp [← h.1, ← h.2]

omit hok hs ht in
theorem bisectE_used {p : Nat → Except PyErr Bool} {lo hi i : Nat} (h : bisectE p lo hi = .ok i) (hlt : lo < hi) : ∃ j r, j < hi ∧ p j = .ok r := by
  rw [bisectE, dif_pos hlt] at h
  cases hp : p ((lo + hi) / 2) with
  | error e => rw [hp] at h; cases h
  | ok r => exact ⟨_, r, by omega, hp⟩

theorem insertE_related {a a' : List α} {x c : α} (h : insertE lt a x = .ok a') (ha : a ≠ []) (hc : ∀ y ∈ a, R c y) :
    R c x ∧ a' ≠ [] ∧ ∀ y ∈ a', R c y := by
  unfold insertE at h
  cases hb : bisectE (pivotE lt a x) 0 a.length with
  | error e => rw [hb] at h; cases h
  | ok i =>
    simp only [hb, Except.ok.injEq] at h
    obtain ⟨j, r, hj, hr⟩ := bisectE_used hb (List.length_pos_iff.2 ha)
    simp only [pivotE, List.getElem?_eq_getElem hj] at hr
    have hx : R x a[j] := by
      cases hl : lt x a[j] with
      | error e => rw [hl] at hr; cases hr
      | ok r => exact hok _ _ _ hl
    have hcx : R c x := ht _ _ _ (hc _ (List.getElem_mem hj)) (hs _ _ hx)
    subst h
    refine ⟨hcx, ?_, ?_⟩
    · intro h0
      have := List.length_le_length_insertIdx (l := a) (x := x) (i := i)
      rw [h0] at this
      exact ha (List.eq_nil_of_length_eq_zero (by simpa using this))
    · intro y hy
      by_cases hi : i ≤ a.length
      · exact ((List.mem_insertIdx hi).1 hy).elim (fun e => e ▸ hcx) (hc y)
      · rw [List.insertIdx_of_length_lt (by omega)] at hy; exact hc y hy

theorem insertAllE_related {xs a s : List α} {c : α} (h : insertAllE lt a xs = .ok s) (ha : a ≠ []) (hc : ∀ y ∈ a, R c y) : ∀ x ∈ xs, R c x := by
  induction xs generalizing a with
  | nil => simp
  | cons x xs ih =>
    unfold insertAllE at h
    cases hi : insertE lt a x with
    | error e => rw [hi] at h; cases h
    | ok a' =>
      simp only [hi] at h
      obtain ⟨h1, h2, h3⟩ := insertE_related hok hs ht hi ha hc
      intro y hy
      rcases List.mem_cons.1 hy with rfl | hy
      · exact h1
      · exact ih h h2 h3 y hy

theorem sortE_related {l s : List α} (h : sortE lt l = .ok s) (hl : 2 ≤ l.length) : ∀ x ∈ l, ∀ y ∈ l, R x y := by
  match l with
  | [] => simp at hl
  | [a] => simp at hl
  | a :: b :: l =>
    have key : ∀ x ∈ a :: b :: l, R a x := by
      simp only [sortE, countRunE] at h
      cases hb : lt b a with
      | error e => rw [hb] at h; cases h
      | ok r =>
        have hab : R a b := hs _ _ (hok _ _ _ hb)
        have haa : R a a := ht _ _ _ hab (hs _ _ hab)
        rw [hb] at h
        cases r <;>
        · simp only [] at h
          cases ht' : takeRunE lt _ a (b :: l) with
          | error e => rw [ht'] at h; cases h
          | ok t =>
            obtain ⟨run, rest⟩ := t
            simp only [ht'] at h
            obtain ⟨h1, h2⟩ := takeRunE_related hok hs ht ht'
            have h3 := insertAllE_related hok hs ht h (by simp) (c := a) (by
              intro y hy
              simp only [List.mem_reverse, List.mem_cons] at hy
              exact hy.elim (fun e => e ▸ haa) (h1 y))
            intro x hx
            rcases List.mem_cons.1 hx with rfl | hx
            · exact haa
            · rw [← h2] at hx
              exact (List.mem_append.1 hx).elim (h1 x) (h3 x)
    exact fun x hx y hy => ht _ _ _ (hs _ _ (key x hx)) (key y hy)

omit hok hs ht

/-- the only errors of the sort are those of the comparison -/
theorem sortE_error {E : PyErr → Prop} (hlt : ∀ x y e, lt x y = .error e → E e) {l : List α} {e : PyErr} (h : sortE lt l = .error e) : E e := by
  have htr : ∀ (l : List α) d prev e, takeRunE lt d prev l = .error e → E e := by
    intro l
    induction l with
    | nil => intro d prev e h; cases h
    | cons x l ih =>
      intro d prev e h
      unfold takeRunE at h
      cases hx : lt x prev with
      | error e' => rw [hx] at h; cases h; exact hlt _ _ _ hx
      | ok r =>
        simp only [hx] at h
        split at h
        · cases hb : takeRunE lt d x l with
          | error e' => rw [hb] at h; cases h; exact ih _ _ _ hb
          | ok t => rw [hb] at h; cases h
        · cases h
  have hbi : ∀ (p : Nat → Except PyErr Bool), (∀ i e, p i = .error e → E e) → ∀ n lo hi e, hi - lo = n → bisectE p lo hi = .error e → E e := by
    intro p hp n
    induction n using Nat.strongRecOn with
    | _ n ih =>
      intro lo hi e hn h
      rw [bisectE] at h
      by_cases hl : lo < hi
      · rw [dif_pos hl] at h
        cases hm : p ((lo + hi) / 2) with
        | error e' => rw [hm] at h; cases h; exact hp _ _ hm
        | ok r =>
          rw [hm] at h
          cases r
          · exact ih _ (by omega) lo _ e rfl h
          · exact ih _ (by omega) _ hi e rfl h
      · rw [dif_neg hl] at h; cases h
  have hins : ∀ (a : List α) x e, insertE lt a x = .error e → E e := by
    intro a x e h
    unfold insertE at h
    cases hb : bisectE (pivotE lt a x) 0 a.length with
    | error e' =>
      rw [hb] at h; cases h
      refine hbi _ ?_ _ _ _ _ rfl hb
      intro i e hi
      unfold pivotE at hi
      cases hy : a[i]? with
      | none => rw [hy] at hi; cases hi
      | some y =>
        simp only [hy] at hi
        cases hl : lt x y with
        | error e' => rw [hl] at hi; cases hi; exact hlt _ _ _ hl
        | ok r => rw [hl] at hi; cases hi
    | ok i => rw [hb] at h; cases h
  have hall : ∀ (xs a : List α) e, insertAllE lt a xs = .error e → E e := by
    intro xs
    induction xs with
    | nil => intro a e h; cases h
    | cons x xs ih =>
      intro a e h
      unfold insertAllE at h
      cases hi : insertE lt a x with
      | error e' => rw [hi] at h; cases h; exact hins _ _ _ hi
      | ok a' => rw [hi] at h; exact ih _ _ h
  unfold sortE at h
  cases hc : countRunE lt l with
  | ok t => rw [hc] at h; exact hall _ _ _ h
  | error e' =>
    rw [hc] at h; cases h
    match l with
    | [] => cases hc
    | [a] => cases hc
    | a :: b :: l =>
      simp only [countRunE] at hc
      cases hb : lt b a with
      | error e' => rw [hb] at hc; cases hc; exact hlt _ _ _ hb
      | ok r =>
        rw [hb] at hc
        cases r <;>
        · simp only [] at hc
          cases ht' : takeRunE lt _ a (b :: l) with
          | error e' => rw [ht'] at hc; cases hc; exact htr _ _ _ _ ht'
          | ok t => rw [ht'] at hc; cases hc

end
end Compare
end Verif

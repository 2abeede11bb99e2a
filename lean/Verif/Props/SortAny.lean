import Verif.Lemmas.Bisect
import Verif.Lemmas.Sort
import Verif.Props.Pattern
/-! C06: `Pattern(list)` whatever stable sorting algorithm `list.sort` uses, for lists of any length. -/
namespace Verif

/-- `r` is a stable sort of `l`: the same elements, none before a smaller one, elements that are not ordered in their original order -/
structure Spec.StableSortOf {α : Type} (lt : α → α → Bool) (l r : List α) : Prop where
  perm : r.Perm l
  sorted : r.Pairwise (fun a b => lt b a = false)
  stable : ∀ x ∈ l, r.filter (fun y => !lt x y && !lt y x) = l.filter (fun y => !lt x y && !lt y x)

open Spec

section
variable {α κ : Type} [LinearOrder κ] (key : α → κ) (S : α → Prop) (lt : α → α → Bool)
  (hlt : ∀ a b, S a → S b → (lt a b = true ↔ key a < key b))

/-- elements with the same key in their original order -/
theorem same_of_keys {r r' : List α} (h1 : r.Pairwise (fun a b => key a ≤ key b)) (h2 : r'.Pairwise (fun a b => key a ≤ key b))
    (h : ∀ k, r.filter (fun y => decide (key y = k)) = r'.filter (fun y => decide (key y = k))) : r = r' := by
  induction r generalizing r' with
  | nil =>
    cases r' with
    | nil => rfl
    | cons b t =>
      have := h (key b)
      simp at this
  | cons a s ih =>
    cases r' with
    | nil =>
      have := h (key a)
      simp at this
    | cons b t =>
      rw [List.pairwise_cons] at h1 h2
      have hmem : ∀ x, x ∈ a :: s ↔ x ∈ b :: t := by
        intro x
        have hx := congrArg (fun l => x ∈ l) (h (key x))
        simp only [List.mem_filter, decide_true, and_true, eq_iff_iff] at hx
        exact hx
      have hk : key a = key b := by
        apply le_antisymm
        · rcases List.mem_cons.1 ((hmem b).2 (by simp)) with e | e
          · rw [e]
          · exact h1.1 b e
        · rcases List.mem_cons.1 ((hmem a).1 (by simp)) with e | e
          · rw [e]
          · exact h2.1 a e
      have ha := h (key a)
      rw [List.filter_cons_of_pos (by simp), List.filter_cons_of_pos (by simp [hk])] at ha
      have hab : a = b := (List.cons.inj ha).1
      subst hab
      congr 1
      apply ih h1.2 h2.2
      intro k
      have hk := h k
      by_cases e : key a = k
      · rw [List.filter_cons_of_pos (by simpa using e), List.filter_cons_of_pos (by simpa using e)] at hk
        exact (List.cons.inj hk).2
      · rw [List.filter_cons_of_neg (by simpa using e), List.filter_cons_of_neg (by simpa using e)] at hk
        exact hk

include hlt

theorem eqv_iff {x y : α} (hx : S x) (hy : S y) : (!lt x y && !lt y x) = decide (key y = key x) := by
  rw [Bool.eq_iff_iff]
  simp only [Bool.and_eq_true, Bool.not_eq_true', ← Bool.not_eq_true, decide_eq_true_eq, hlt x y hx hy, hlt y x hy hx, not_lt]
  exact ⟨fun h => le_antisymm h.1 h.2, fun h => ⟨h.le, h.ge⟩⟩

/-- a stable sort in terms of keys -/
theorem stableSortOf_keys {l r : List α} (hl : ∀ a ∈ l, S a) :
    StableSortOf lt l r ↔ r.Perm l ∧ r.Pairwise (fun a b => key a ≤ key b) ∧ ∀ k, r.filter (fun y => decide (key y = k)) = l.filter (fun y => decide (key y = k)) := by
  constructor
  · rintro ⟨h1, h2, h3⟩
    have hr : ∀ a ∈ r, S a := fun a ha => hl a (h1.mem_iff.1 ha)
    refine ⟨h1, h2.imp_of_mem (fun ha hb h => ?_), fun k => ?_⟩
    · rw [← not_lt, ← hlt _ _ (hr _ hb) (hr _ ha)]
      simpa using h
    · by_cases hk : ∃ x ∈ l, key x = k
      · obtain ⟨x, hx, rfl⟩ := hk
        have e : ∀ m : List α, (∀ a ∈ m, S a) → m.filter (fun y => decide (key y = key x)) = m.filter (fun y => !lt x y && !lt y x) := by
          intro m hm
          apply List.filter_congr
          intro y hy
          rw [eqv_iff key S lt hlt (hl x hx) (hm y hy)]
        rw [e r hr, e l hl]
        exact h3 x hx
      · rw [List.filter_eq_nil_iff.2, List.filter_eq_nil_iff.2]
        · intro a ha h; exact hk ⟨a, ha, by simpa using h⟩
        · intro a ha h; exact hk ⟨a, h1.mem_iff.1 ha, by simpa using h⟩
  · rintro ⟨h1, h2, h3⟩
    have hr : ∀ a ∈ r, S a := fun a ha => hl a (h1.mem_iff.1 ha)
    refine ⟨h1, h2.imp_of_mem (fun ha hb h => ?_), fun x hx => ?_⟩
    · rw [← Bool.not_eq_true, hlt _ _ (hr _ hb) (hr _ ha), not_lt]
      exact h
    · have e : ∀ m : List α, (∀ a ∈ m, S a) → m.filter (fun y => decide (key y = key x)) = m.filter (fun y => !lt x y && !lt y x) := by
        intro m hm
        apply List.filter_congr
        intro y hy
        rw [eqv_iff key S lt hlt (hl x hx) (hm y hy)]
      rw [← e r hr, ← e l hl]
      exact h3 _

/-- there is only one stable sort of a list -/
theorem stableSortOf_unique {l r r' : List α} (hl : ∀ a ∈ l, S a) (h : StableSortOf lt l r) (h' : StableSortOf lt l r') : r = r' := by
  obtain ⟨_, h1, h2⟩ := (stableSortOf_keys key S lt hlt hl).1 h
  obtain ⟨_, h1', h2'⟩ := (stableSortOf_keys key S lt hlt hl).1 h'
  exact same_of_keys key h1 h1' (fun k => (h2 k).trans (h2' k).symm)

omit [LinearOrder κ] hlt in
theorem insertIdx_at {x : α} {l : List α} {k : Nat} (h : k ≤ l.length) : l.insertIdx k x = l.take k ++ x :: l.drop k := by
  induction l generalizing k with
  | nil => have : k = 0 := by simpa using h
           subst this; rfl
  | cons a l ih =>
    cases k with
    | zero => rfl
    | succ k => simp only [List.insertIdx_succ_cons, List.take_succ_cons, List.drop_succ_cons, List.cons_append]; rw [ih (by simpa using h)]

theorem binaryInsert_stable {l : List α} {x : α} (hl : ∀ a ∈ l, S a) (hx : S x) (hs : l.Pairwise (fun a b => key a ≤ key b)) (k : κ) :
    (binaryInsert lt l x).filter (fun y => decide (key y = k)) = (l ++ [x]).filter (fun y => decide (key y = k)) := by
  have hp : ∀ i (h : i < l.length), ((match l[i]? with | some y => !(lt x y) | none => false) = true ↔ key l[i] ≤ key x) := by
    intro i h
    rw [List.getElem?_eq_getElem h]
    simp only [Bool.not_eq_true', ← Bool.not_eq_true]
    rw [hlt _ _ hx (hl _ (List.getElem_mem h)), not_lt]
  obtain ⟨_, h2, h3, h4⟩ := bisectLoop_spec (fun i => match l[i]? with | some y => !(lt x y) | none => false) 0 l.length
    (by omega) (fun i j _ hij hj hpj => by
      have h1 := (hp j hj).1 hpj
      refine (hp i (by omega)).2 (le_trans ?_ h1)
      rcases Nat.lt_or_eq_of_le hij with h | h
      · exact List.pairwise_iff_getElem.1 hs i j (by omega) hj h
      · subst h; exact le_refl _)
  unfold binaryInsert
  generalize bisectLoop (fun i => match l[i]? with | some y => !(lt x y) | none => false) 0 l.length = i at *
  rw [insertIdx_at h2]
  have hd : ∀ y ∈ l.drop i, key y ≠ key x := by
    intro y hy
    obtain ⟨j, hj, rfl⟩ := List.getElem_of_mem hy
    rw [List.length_drop] at hj
    rw [List.getElem_drop]
    have := h4 (i + j) (by omega) (by omega)
    intro he
    rw [(hp (i + j) (by omega)).2 he.le] at this
    cases this
  have hl' : l = l.take i ++ l.drop i := (List.take_append_drop i l).symm
  conv_rhs => rw [hl']
  rw [List.filter_append, List.filter_append, List.filter_append, List.append_assoc]
  congr 1
  by_cases hk : key x = k
  · have : (l.drop i).filter (fun y => decide (key y = k)) = [] := by
      rw [List.filter_eq_nil_iff]
      intro y hy h
      exact hd y hy (by rw [of_decide_eq_true h, hk])
    rw [List.filter_cons_of_pos (by simpa using hk), this, List.filter_cons_of_pos (by simpa using hk)]
    rfl
  · rw [List.filter_cons_of_neg (by simpa using hk), List.filter_cons_of_neg (by simpa using hk)]
    simp

theorem foldl_stable {l acc : List α} (hl : ∀ a ∈ l, S a) (hacc : ∀ a ∈ acc, S a) (hs : acc.Pairwise (fun a b => key a ≤ key b)) (k : κ) :
    (l.foldl (binaryInsert lt) acc).filter (fun y => decide (key y = k)) = (acc ++ l).filter (fun y => decide (key y = k)) := by
  induction l generalizing acc with
  | nil => simp
  | cons x l ih =>
    obtain ⟨h1, h2⟩ := binaryInsert_spec key S lt hlt hacc (hl x (by simp)) hs
    rw [List.foldl_cons, ih (fun a ha => hl a (by simp [ha])) (fun a ha => by
      rcases List.mem_cons.1 (h1.mem_iff.1 ha) with rfl | ha
      · exact hl _ (by simp)
      · exact hacc a ha) h2, List.filter_append, binaryInsert_stable key S lt hlt hacc (hl x (by simp)) hs, ← List.filter_append]
    simp

theorem takeRun_strict {prev : α} {l : List α} (hp : S prev) (hl : ∀ a ∈ l, S a) : (prev :: (takeRun lt true prev l).1).Pairwise (fun a b => key b < key a) := by
  induction l generalizing prev with
  | nil => simp [takeRun]
  | cons x l ih =>
    unfold takeRun
    by_cases h : (lt x prev == true) = true
    · rw [if_pos h]
      have hx := hl x (by simp)
      have ih' := ih hx (fun a ha => hl a (by simp [ha]))
      have hlt' : key x < key prev := (hlt x prev hx hp).1 (by simpa using h)
      refine List.pairwise_cons.2 ⟨fun b hb => ?_, ih'⟩
      rcases List.mem_cons.1 hb with rfl | hb
      · exact hlt'
      · exact lt_trans ((List.pairwise_cons.1 ih').1 b hb) hlt'
    · rw [if_neg h]; simp

omit hlt in
/-- reversing a strictly decreasing list does not move elements with the same key past one another -/
theorem filter_reverse_strict {l : List α} (h : l.Pairwise (fun a b => key b < key a)) (k : κ) :
    l.reverse.filter (fun y => decide (key y = k)) = l.filter (fun y => decide (key y = k)) := by
  rw [List.filter_reverse]
  have hp : (l.filter (fun y => decide (key y = k))).Pairwise (fun a b => key b < key a) := h.sublist List.filter_sublist
  have hk : ∀ y ∈ l.filter (fun y => decide (key y = k)), key y = k := fun y hy => by simpa using (List.mem_filter.1 hy).2
  match hm : l.filter (fun y => decide (key y = k)) with
  | [] => rfl
  | [a] => rfl
  | a :: b :: m =>
    rw [hm] at hp hk
    have := (List.pairwise_cons.1 hp).1 b (by simp)
    rw [hk a (by simp), hk b (by simp)] at this
    exact absurd this (lt_irrefl _)

theorem countRun_stable {l : List α} (hl : ∀ a ∈ l, S a) (k : κ) :
    ((countRun lt l).1 ++ (countRun lt l).2).filter (fun y => decide (key y = k)) = l.filter (fun y => decide (key y = k)) := by
  match l with
  | [] => rfl
  | [a] => simp [countRun]
  | a :: b :: l =>
    have hS : ∀ x ∈ b :: l, S x := fun x hx => hl x (List.mem_cons_of_mem _ hx)
    simp only [countRun]
    split
    · rw [List.filter_append, filter_reverse_strict key (takeRun_strict key S lt hlt (hl a (by simp)) hS), ← List.filter_append, List.cons_append, takeRun_append]
    · rw [List.cons_append, takeRun_append]

/-- the sort of the model is a stable sort -/
theorem pySort_stable {l : List α} (hl : ∀ a ∈ l, S a) : StableSortOf lt l (pySort lt l) := by
  obtain ⟨h1, h2⟩ := pySort_spec key S lt hlt hl
  refine (stableSortOf_keys key S lt hlt hl).2 ⟨h1, h2, fun k => ?_⟩
  have hp := countRun_perm lt l
  have hm : ∀ a, a ∈ (countRun lt l).1 ++ (countRun lt l).2 → S a := fun a ha => hl a (hp.mem_iff.1 ha)
  unfold pySort
  rw [foldl_stable key S lt hlt (fun a ha => hm a (by simp [ha])) (fun a ha => hm a (by simp [ha])) (countRun_sorted key S lt hlt hl), countRun_stable key S lt hlt hl]

end

/-- the insertion sort of the model (`sorted` with a key) is a stable sort, and so the only one -/
theorem stableSort_stable {α κ : Type} [LinearOrder κ] (key : α → κ) (l : List α) :
    StableSortOf (fun a b => decide (key a < key b)) l (stableSort (fun a b => decide (key a ≤ key b)) l) := by
  refine (stableSortOf_keys key (fun _ => True) _ (fun a b _ _ => by simp) (fun _ _ => trivial)).2 ⟨stableSort_perm l, ?_, fun k => ?_⟩
  · exact (pairwise_stableSort (le := fun a b => decide (key a ≤ key b)) (fun a b c h1 h2 => by
      simp only [decide_eq_true_eq] at *; exact le_trans h1 h2) (fun a b => by
      simp only [Bool.or_eq_true, decide_eq_true_eq]; exact le_total _ _) l).imp (fun h => by simpa using h)
  · unfold stableSort
    induction l with
    | nil => rfl
    | cons a l ih =>
      have hins : ∀ m : List α, (sortedInsert (fun a b => decide (key a ≤ key b)) a m).filter (fun y => decide (key y = k)) = (a :: m).filter (fun y => decide (key y = k)) := by
        intro m
        induction m with
        | nil => rfl
        | cons b m ihm =>
          unfold sortedInsert
          split
          · rfl
          · rename_i h
            have hba : key b < key a := by simpa using h
            by_cases hb : key b = k
            · have ha : key a ≠ k := by rw [← hb]; exact hba.ne'
              rw [List.filter_cons_of_pos (by simpa using hb), ihm, List.filter_cons_of_neg (by simpa using ha), List.filter_cons_of_neg (by simpa using ha),
                List.filter_cons_of_pos (by simpa using hb)]
            · rw [List.filter_cons_of_neg (by simpa using hb), ihm]
              simp only [List.filter_cons]
              simp [hb]
      rw [List.foldr_cons, hins, List.filter_cons, List.filter_cons, ih]

/-- C06, sorting: the list of a pattern is the same whatever stable sorting algorithm is behind `list.sort` (CPython uses binary insertion for fewer than 64 elements and
merges runs otherwise): it is the stable sort of the given list, without the elements equal to the one before. -/
theorem C06_any_sort (S : Selector → Prop) (hS : Homogeneous S) (l r : List Selector) (hl : ∀ s ∈ l, S s) (hr : StableSortOf Selector.lt l r) :
    Pattern.new l = ⟨Pattern.dedupLoop [] r⟩ := by
  have hlt : ∀ a b, S a → S b → (a.lt b = true ↔ a.key < b.key) := fun a b ha hb => Selector.lt_iff_key (hS a b ha hb)
  unfold Pattern.new
  rw [stableSortOf_unique Selector.key S Selector.lt hlt hl hr (pySort_stable Selector.key S Selector.lt hlt hl)]

/-- C06, sorting: there is such a list, and only one. -/
theorem C06_sort_exists (S : Selector → Prop) (hS : Homogeneous S) (l : List Selector) (hl : ∀ s ∈ l, S s) : ∃! r, StableSortOf Selector.lt l r := by
  have hlt : ∀ a b, S a → S b → (a.lt b = true ↔ a.key < b.key) := fun a b ha hb => Selector.lt_iff_key (hS a b ha hb)
  exact ⟨_, pySort_stable Selector.key S Selector.lt hlt hl, fun r hr => stableSortOf_unique Selector.key S Selector.lt hlt hl hr (pySort_stable Selector.key S Selector.lt hlt hl)⟩

/-- non-vacuity: `1` and `1.0` are not ordered and stay in their order -/
example : StableSortOf Selector.lt [⟨c!"b", .equal, .flt (mkFlt 1 0)⟩, ⟨c!"b", .equal, .int 1⟩, ⟨c!"a", .equal, .int 2⟩]
    [⟨c!"a", .equal, .int 2⟩, ⟨c!"b", .equal, .flt (mkFlt 1 0)⟩, ⟨c!"b", .equal, .int 1⟩] := by
  refine ⟨by decide +kernel, by decide +kernel, by decide +kernel⟩

end Verif

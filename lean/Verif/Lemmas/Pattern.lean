import Verif.Model.Pattern
import Verif.Lemmas.Bisect
import Verif.Lemmas.SelectorOrder
/-! Patterns over homogeneous selectors are strictly sorted lists. -/
namespace Verif.Pattern

/-- strictly increasing keys -/
abbrev Sorted (l : List Selector) : Prop := l.Pairwise (fun a b => a.key < b.key)

theorem ne_iff_key (a b : Selector) : a.ne b = true ↔ a.key ≠ b.key := by
  rw [Selector.ne_eq, Bool.not_eq_true', ← Bool.not_eq_true, Selector.eq_iff_key]

theorem ne_false_iff_key (a b : Selector) : ¬ (a.ne b = true) ↔ a.key = b.key := by
  rw [ne_iff_key, not_not]

theorem dedupLoop_spec (l acc : List Selector) (h1 : Sorted acc.reverse) (h2 : l.Pairwise (fun a b => a.key ≤ b.key))
    (h3 : ∀ a ∈ acc, ∀ b ∈ l, a.key ≤ b.key) :
    Sorted (dedupLoop acc l) ∧ (∀ s ∈ dedupLoop acc l, s ∈ acc ∨ s ∈ l) ∧
    (∀ s, (s ∈ acc ∨ s ∈ l) → ∃ t ∈ dedupLoop acc l, t.key = s.key) := by
  induction l generalizing acc with
  | nil =>
    have : dedupLoop acc [] = acc.reverse := by cases acc <;> simp [dedupLoop]
    rw [this]
    exact ⟨h1, fun s hs => .inl (by simpa using hs), fun s hs => ⟨s, by simpa using hs, rfl⟩⟩
  | cons x xs ih =>
    have h2' := List.pairwise_cons.1 h2
    match acc with
    | [] =>
      simp only [dedupLoop]
      obtain ⟨i1, i2, i3⟩ := ih [x] (by simp) h2'.2 (by simpa using h2'.1)
      refine ⟨i1, fun s hs => ?_, fun s hs => i3 s (by simpa using hs)⟩
      have := i2 s hs; simpa using this
    | y :: ys =>
      simp only [dedupLoop]
      split
      · rename_i hne
        rw [ne_iff_key] at hne
        have hlt : ∀ a ∈ y :: ys, a.key < x.key := by
          have hyx : y.key < x.key := lt_of_le_of_ne (h3 y (by simp) x (by simp)) hne
          intro a ha
          rcases List.mem_cons.1 ha with rfl | ha
          · exact hyx
          · refine lt_trans ?_ hyx
            simp only [List.reverse_cons, Sorted, List.pairwise_append] at h1
            exact h1.2.2 a (by simpa using ha) y (by simp)
        obtain ⟨i1, i2, i3⟩ := ih (x :: y :: ys) (by
            rw [List.reverse_cons, Sorted, List.pairwise_append]
            refine ⟨h1, by simp, fun a ha b hb => ?_⟩
            simp at hb; subst hb
            exact hlt a (List.mem_reverse.1 ha)) h2'.2 (by
            intro a ha b hb
            rcases List.mem_cons.1 ha with rfl | ha
            · exact h2'.1 b hb
            · exact h3 a ha b (by simp [hb]))
        refine ⟨i1, fun s hs => ?_, fun s hs => i3 s ?_⟩
        · have := i2 s hs
          simp only [List.mem_cons] at this ⊢
          tauto
        · simp only [List.mem_cons] at hs ⊢
          tauto
      · rename_i hne
        rw [ne_false_iff_key] at hne
        obtain ⟨i1, i2, i3⟩ := ih (y :: ys) h1 h2'.2 (fun a ha b hb => h3 a ha b (by simp [hb]))
        refine ⟨i1, fun s hs => ?_, fun s hs => ?_⟩
        · have := i2 s hs
          simp only [List.mem_cons] at this ⊢
          tauto
        · by_cases hsx : s = x
          · obtain ⟨t, ht, hk⟩ := i3 y (by simp)
            exact ⟨t, ht, by rw [hk, hne, hsx]⟩
          · refine i3 s ?_
            simp only [List.mem_cons] at hs ⊢
            tauto

section
variable {S : Selector → Prop}
  (hlt : ∀ a b, S a → S b → (a.lt b = true ↔ a.key < b.key))
include hlt

theorem new_spec {l : List Selector} (hl : ∀ s ∈ l, S s) :
    Sorted (new l).sels ∧ (∀ s ∈ (new l).sels, s ∈ l) ∧ (∀ s ∈ l, ∃ t ∈ (new l).sels, t.key = s.key) := by
  obtain ⟨h1, h2⟩ := pySort_spec Selector.key S Selector.lt hlt hl
  obtain ⟨i1, i2, i3⟩ := dedupLoop_spec (pySort Selector.lt l) [] (by simp) h2 (by simp)
  refine ⟨i1, fun s hs => ?_, fun s hs => i3 s (.inr (h1.mem_iff.2 hs))⟩
  have := i2 s hs
  simp only [List.not_mem_nil, false_or] at this
  exact h1.mem_iff.1 this

/-- position found by the bisection in a strictly sorted list -/
theorem index_spec {p : Pattern} {x : Selector} (hp : ∀ s ∈ p.sels, S s) (hx : S x) (hs : Sorted p.sels) :
    p.index x ≤ p.sels.length ∧
    (∀ i (h : i < p.sels.length), i < p.index x → p.sels[i].key < x.key) ∧
    (∀ i (h : i < p.sels.length), p.index x ≤ i → x.key ≤ p.sels[i].key) :=
  bisectLeft_spec Selector.key S Selector.lt hlt hp hx (hs.imp le_of_lt)

theorem exists_key_iff {p : Pattern} {x : Selector} (hp : ∀ s ∈ p.sels, S s) (hx : S x) (hs : Sorted p.sels) :
    (∃ t ∈ p.sels, t.key = x.key) ↔ ∃ h : p.index x < p.sels.length, (p.sels[p.index x]).key = x.key := by
  obtain ⟨h1, h2, h3⟩ := index_spec hlt hp hx hs
  constructor
  · rintro ⟨t, ht, hk⟩
    obtain ⟨i, hi, rfl⟩ := List.getElem_of_mem ht
    have hle : p.index x ≤ i := by
      by_contra hc
      exact absurd (h2 i hi (by omega)) (by rw [hk]; exact lt_irrefl _)
    have hlt' : p.index x < p.sels.length := by omega
    refine ⟨hlt', le_antisymm ?_ (h3 _ hlt' (Nat.le_refl _))⟩
    rcases Nat.lt_or_eq_of_le hle with h | h
    · exact le_of_lt (hk ▸ List.pairwise_iff_getElem.1 hs _ _ hlt' hi h)
    · simp only [h, hk, le_refl]
  · rintro ⟨h, hk⟩
    exact ⟨_, List.getElem_mem h, hk⟩

theorem contains_iff {p : Pattern} {x : Selector} (hp : ∀ s ∈ p.sels, S s) (hx : S x) (hs : Sorted p.sels) :
    p.contains x = true ↔ ∃ t ∈ p.sels, t.key = x.key := by
  rw [exists_key_iff hlt hp hx hs]
  unfold contains
  split
  · rename_i h; simp [h]
  · by_cases h : p.index x < p.sels.length
    · simp [Selector.eq_iff_key, h]
    · simp [h]

theorem add_spec {p : Pattern} {x : Selector} (hp : ∀ s ∈ p.sels, S s) (hx : S x) (hs : Sorted p.sels) :
    (∀ s ∈ (p.add x).sels, s ∈ p.sels ∨ s = x) ∧ Sorted (p.add x).sels ∧
    (∀ k, (∃ t ∈ (p.add x).sels, t.key = k) ↔ (∃ t ∈ p.sels, t.key = k) ∨ x.key = k) := by
  obtain ⟨h1, h2, h3⟩ := index_spec hlt hp hx hs
  have hex := exists_key_iff hlt hp hx hs
  unfold add
  simp only
  split
  · rename_i hi
    simp only
    refine ⟨by simp, ?_, fun k => ?_⟩
    · rw [Sorted, List.pairwise_append]
      refine ⟨hs, by simp, fun a ha b hb => ?_⟩
      simp at hb; subst hb
      obtain ⟨i, hi', rfl⟩ := List.getElem_of_mem ha
      exact h2 i hi' (by omega)
    · constructor
      · rintro ⟨t, ht, rfl⟩
        rcases List.mem_append.1 ht with ht | ht
        · exact .inl ⟨t, ht, rfl⟩
        · simp at ht; subst ht; exact .inr rfl
      · rintro (⟨t, ht, rfl⟩ | rfl)
        · exact ⟨t, by simp [ht], rfl⟩
        · exact ⟨x, by simp, rfl⟩
  · rename_i hi
    have hlen : p.index x < p.sels.length := by omega
    rw [List.getElem?_eq_getElem hlen]
    simp only
    split
    · rename_i hne
      rw [ne_iff_key] at hne
      have hgt : ∀ j (h : j < p.sels.length), p.index x ≤ j → x.key < p.sels[j].key := by
        intro j h hj
        have h4 : x.key < p.sels[p.index x].key := lt_of_le_of_ne (h3 _ hlen (Nat.le_refl _)) (Ne.symm hne)
        rcases Nat.lt_or_eq_of_le hj with h5 | h5
        · exact lt_trans h4 (List.pairwise_iff_getElem.1 hs _ _ hlen h h5)
        · simpa [h5] using h4
      have hperm := insertIdx_perm h1 x
      refine ⟨fun s hs' => ?_, insertIdx_pairwise h1 hs h2 hgt, fun k => ?_⟩
      · have := hperm.mem_iff.1 hs'
        simp only [List.mem_cons] at this
        tauto
      · constructor
        · rintro ⟨t, ht, rfl⟩
          rcases List.mem_cons.1 (hperm.mem_iff.1 ht) with rfl | ht
          · exact .inr rfl
          · exact .inl ⟨t, ht, rfl⟩
        · rintro (⟨t, ht, rfl⟩ | rfl)
          · exact ⟨t, hperm.mem_iff.2 (by simp [ht]), rfl⟩
          · exact ⟨x, hperm.mem_iff.2 (by simp), rfl⟩
    · rename_i hne
      rw [ne_false_iff_key] at hne
      refine ⟨fun s h => .inl h, hs, fun k => ⟨.inl, ?_⟩⟩
      rintro (h | rfl)
      · exact h
      · exact ⟨_, List.getElem_mem hlen, hne⟩

omit hlt in
theorem eraseIdx_spec {l : List Selector} (hs : Sorted l) {i : Nat} (hi : i < l.length) :
    Sorted (l.eraseIdx i) ∧ (∀ s, s ∈ l.eraseIdx i ↔ s ∈ l ∧ s.key ≠ l[i].key) := by
  refine ⟨hs.sublist (List.eraseIdx_sublist ..), fun s => ?_⟩
  rw [List.mem_eraseIdx_iff_getElem]
  constructor
  · rintro ⟨j, hj, hne, rfl⟩
    refine ⟨List.getElem_mem hj, ?_⟩
    rcases Nat.lt_or_gt_of_ne hne with h | h
    · exact (List.pairwise_iff_getElem.1 hs _ _ hj hi h).ne
    · exact (List.pairwise_iff_getElem.1 hs _ _ hi hj h).ne'
  · rintro ⟨hm, hk⟩
    obtain ⟨j, hj, rfl⟩ := List.getElem_of_mem hm
    exact ⟨j, hj, fun h => hk (by simp [h]), rfl⟩

theorem remove_spec {p : Pattern} {x : Selector} (hp : ∀ s ∈ p.sels, S s) (hx : S x) (hs : Sorted p.sels) :
    Sorted (p.remove x).sels ∧ (∀ s, s ∈ (p.remove x).sels ↔ s ∈ p.sels ∧ s.key ≠ x.key) := by
  have hex := exists_key_iff hlt hp hx hs
  unfold remove
  simp only
  by_cases hlen : p.index x < p.sels.length
  · rw [List.getElem?_eq_getElem hlen]
    simp only
    split
    · rename_i heq
      rw [Selector.eq_iff_key] at heq
      have := eraseIdx_spec hs hlen
      rw [heq] at this
      exact this
    · rename_i hne
      rw [Selector.eq_iff_key] at hne
      refine ⟨hs, fun s => ⟨fun h => ⟨h, fun hk => ?_⟩, fun h => h.1⟩⟩
      obtain ⟨h1, h2⟩ := hex.1 ⟨s, h, hk⟩
      exact hne h2
  · rw [List.getElem?_eq_none (Nat.le_of_not_lt hlen)]
    refine ⟨hs, fun s => ⟨fun h => ⟨h, fun hk => ?_⟩, fun h => h.1⟩⟩
    obtain ⟨h1, h2⟩ := hex.1 ⟨s, h, hk⟩
    exact hlen h1

end

theorem pyIndex_lt {n : Nat} {i : Int} {k : Nat} (h : pyIndex n i = some k) : k < n := by
  unfold pyIndex at h
  split at h
  · split at h
    · cases h; assumption
    · cases h
  · split at h
    · cases h; omega
    · cases h

theorem eqLoop_iff {l m : List Selector} (h : l.length = m.length) :
    eqLoop l m = true ↔ l.map Selector.key = m.map Selector.key := by
  induction l generalizing m with
  | nil => cases m with
    | nil => simp [eqLoop]
    | cons => simp at h
  | cons a l ih => cases m with
    | nil => simp at h
    | cons b m =>
      simp only [eqLoop]
      split
      · rename_i hne
        rw [ne_iff_key] at hne
        simp [hne]
      · rename_i hne
        rw [ne_false_iff_key] at hne
        simp [hne, ih (by simpa using h)]

theorem eq_iff_keys (p q : Pattern) : p.eq q = true ↔ p.sels.map Selector.key = q.sels.map Selector.key := by
  unfold eq
  split
  · rename_i h
    simp only [Bool.false_eq_true, false_iff]
    intro hc
    have := congrArg List.length hc
    simp at this
    exact h this
  · rename_i h
    exact eqLoop_iff (by simpa using h)

theorem ne_eq (p q : Pattern) : p.ne q = !(p.eq q) := by
  unfold ne eq; split <;> rfl

/-- strictly sorted lists with the same keys as sets have the same keys as lists -/
theorem sorted_keys_ext {l m : List Selector} (hl : Sorted l) (hm : Sorted m)
    (h : ∀ k, (∃ t ∈ l, t.key = k) ↔ (∃ t ∈ m, t.key = k)) : l.map Selector.key = m.map Selector.key := by
  have hl' : (l.map Selector.key).Pairwise (· < ·) := List.pairwise_map.2 hl
  have hm' : (m.map Selector.key).Pairwise (· < ·) := List.pairwise_map.2 hm
  have hnl : (l.map Selector.key).Nodup := hl'.imp (fun h => h.ne)
  have hnm : (m.map Selector.key).Nodup := hm'.imp (fun h => h.ne)
  have hperm : (l.map Selector.key).Perm (m.map Selector.key) := by
    rw [List.perm_ext_iff_of_nodup hnl hnm]
    intro k
    simpa using h k
  exact hperm.eq_of_pairwise (fun a b _ _ h1 h2 => absurd h2 h1.not_gt) hl' hm'

end Verif.Pattern

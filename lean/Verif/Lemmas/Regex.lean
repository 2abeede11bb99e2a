import Verif.Spec.Regex
import Mathlib.Tactic.Push
import Mathlib.Order.Basic
/-! The matcher is correct. -/
namespace Verif
open Spec Rgx

theorem nullable_iff (r : Rgx) : r.nullable = true ↔ Lang r [] := by
  induction r with
  | fail => simp [nullable, Lang]
  | eps => simp [nullable, Lang]
  | cls p => simp [nullable, Lang]
  | seq a b iha ihb =>
    simp only [nullable, Bool.and_eq_true, iha, ihb, Lang]
    constructor
    · rintro ⟨h1, h2⟩; exact ⟨[], [], rfl, h1, h2⟩
    · rintro ⟨x, y, h, h1, h2⟩
      obtain ⟨rfl, rfl⟩ := List.append_eq_nil_iff.1 h.symm
      exact ⟨h1, h2⟩
  | alt a b iha ihb => simp [nullable, Lang, iha, ihb]
  | star a _ => simp only [nullable, Lang, true_iff]; exact ⟨[], rfl, by simp⟩

theorem deriv_iff (c : Char) (r : Rgx) (s : Str) : Lang (r.deriv c) s ↔ Lang r (c :: s) := by
  induction r generalizing s with
  | fail => simp [deriv, Lang]
  | eps => simp [deriv, Lang]
  | cls p =>
    simp only [deriv]
    split
    · rename_i h
      simp only [Lang]
      constructor
      · rintro rfl; exact ⟨c, rfl, h⟩
      · rintro ⟨d, h1, -⟩; simp at h1; exact h1.2
    · rename_i h
      simp only [Lang, false_iff]
      rintro ⟨d, h1, h2⟩
      simp at h1
      rw [h1.1] at h
      exact h h2
  | seq a b iha ihb =>
    have key : (∃ x y, s = x ++ y ∧ Lang (a.deriv c) x ∧ Lang b y) ∨ (Lang a [] ∧ Lang b (c :: s)) ↔
        ∃ x y, c :: s = x ++ y ∧ Lang a x ∧ Lang b y := by
      constructor
      · rintro (⟨x, y, rfl, h1, h2⟩ | ⟨h1, h2⟩)
        · exact ⟨c :: x, y, rfl, (iha x).1 h1, h2⟩
        · exact ⟨[], _, rfl, h1, h2⟩
      · rintro ⟨x, y, h, h1, h2⟩
        cases x with
        | nil => simp at h; rw [← h] at h2; exact .inr ⟨h1, h2⟩
        | cons d x =>
          simp at h
          obtain ⟨rfl, rfl⟩ := h
          exact .inl ⟨x, y, rfl, (iha x).2 h1, h2⟩
    simp only [deriv]
    split
    · rename_i hn
      rw [nullable_iff] at hn
      simp only [Lang]
      rw [← key, ihb]
      simp [hn]
    · rename_i hn
      rw [nullable_iff] at hn
      simp only [Lang]
      rw [← key]
      simp [hn]
  | alt a b iha ihb => simp [deriv, Lang, iha, ihb]
  | star a iha =>
    simp only [deriv, Lang]
    constructor
    · rintro ⟨x, y, rfl, h1, l, rfl, h2⟩
      refine ⟨(c :: x) :: l, by simp, ?_⟩
      intro z hz
      rcases List.mem_cons.1 hz with rfl | hz
      · exact (iha x).1 h1
      · exact h2 z hz
    · rintro ⟨l, h, hl⟩
      induction l with
      | nil => simp at h
      | cons z l ih =>
        cases z with
        | nil => exact ih (by simpa using h) (fun x hx => hl x (by simp [hx]))
        | cons d z =>
          simp at h
          obtain ⟨rfl, rfl⟩ := h
          exact ⟨z, l.flatten, rfl, (iha z).2 (hl _ (by simp)), l, rfl, fun x hx => hl x (by simp [hx])⟩

theorem test_iff (r : Rgx) (s : Str) : r.test s = true ↔ Lang r s := by
  induction s generalizing r with
  | nil => exact nullable_iff r
  | cons c s ih => rw [test, ih, deriv_iff]

theorem lang_lit (t s : Str) : Lang (lit t) s ↔ s = t := by
  induction t generalizing s with
  | nil => simp [lit, Lang]
  | cons c t ih =>
    simp only [lit, Lang, ih]
    constructor
    · rintro ⟨x, y, rfl, ⟨d, rfl, hd⟩, rfl⟩
      simp at hd; simp [hd]
    · rintro rfl; exact ⟨[c], t, rfl, ⟨c, rfl, by simp⟩, rfl⟩

theorem lang_star_cls (p : Char → Bool) (s : Str) : Lang (.star (.cls p)) s ↔ ∀ c ∈ s, p c = true := by
  simp only [Lang]
  constructor
  · rintro ⟨l, rfl, h⟩ c hc
    obtain ⟨x, hx, hcx⟩ := List.mem_flatten.1 hc
    obtain ⟨d, rfl, hd⟩ := h x hx
    simp at hcx; rw [hcx]; exact hd
  · intro h
    refine ⟨s.map (fun c => [c]), ?_, ?_⟩
    · induction s with
      | nil => rfl
      | cons a s ih => simp only [List.map_cons, List.flatten_cons]; rw [← ih (fun c hc => h c (by simp [hc]))]; rfl
    · intro x hx
      obtain ⟨c, hc, rfl⟩ := List.mem_map.1 hx
      exact ⟨c, rfl, h c hc⟩

theorem lang_plus_cls (p : Char → Bool) (s : Str) : Lang (plus (.cls p)) s ↔ s ≠ [] ∧ ∀ c ∈ s, p c = true := by
  unfold plus
  constructor
  · rintro ⟨x, y, rfl, ⟨c, rfl, hc⟩, hy⟩
    rw [lang_star_cls] at hy
    refine ⟨by simp, fun d hd => ?_⟩
    rcases List.mem_append.1 hd with h | h
    · simp at h; rw [h]; exact hc
    · exact hy d h
  · rintro ⟨hne, h⟩
    cases s with
    | nil => exact absurd rfl hne
    | cons c s =>
      refine ⟨[c], s, rfl, ⟨c, rfl, h c (by simp)⟩, ?_⟩
      rw [lang_star_cls]
      exact fun d hd => h d (by simp [hd])

theorem mem_cuts {s : Str} {ab : Str × Str} : ab ∈ cuts s ↔ ab.1 ++ ab.2 = s := by
  unfold cuts
  constructor
  · intro h
    obtain ⟨i, -, rfl⟩ := List.mem_map.1 h
    simp
  · rintro rfl
    refine List.mem_map.2 ⟨ab.1.length, by simp; omega, ?_⟩
    simp

theorem fullmatch_sound {rs : List Rgx} {s : Str} {parts : List Str} (h : fullmatch rs s = some parts) : Decomp rs parts s := by
  induction rs generalizing s parts with
  | nil =>
    unfold fullmatch at h
    split at h
    · rename_i hs; cases h; exact ⟨.nil, hs.symm⟩
    · cases h
  | cons r rs ih =>
    unfold fullmatch at h
    obtain ⟨ab, hm, hab⟩ := List.exists_of_findSome?_eq_some h
    rw [mem_cuts] at hm
    split at hab
    · rename_i ht
      rw [test_iff] at ht
      cases hx : fullmatch rs ab.2 with
      | none => rw [hx] at hab; cases hab
      | some ps =>
        rw [hx] at hab
        cases hab
        obtain ⟨h1, h2⟩ := ih hx
        exact ⟨.cons ht h1, by rw [List.flatten_cons, h2, hm]⟩
    · cases hab

theorem fullmatch_complete {rs : List Rgx} {s : Str} {parts : List Str} (h : Decomp rs parts s) :
    ∃ parts', fullmatch rs s = some parts' := by
  induction rs generalizing s parts with
  | nil =>
    obtain ⟨h1, h2⟩ := h
    cases h1
    refine ⟨[], ?_⟩
    unfold fullmatch
    rw [if_pos (by simpa using h2.symm)]
  | cons r rs ih =>
    obtain ⟨h1, h2⟩ := h
    cases h1 with
    | @cons _ a _ ps ha hps =>
      rw [← Option.isSome_iff_exists]
      unfold fullmatch
      rw [List.isSome_findSome?, List.any_eq_true]
      refine ⟨(a, ps.flatten), mem_cuts.2 (by simpa using h2), ?_⟩
      obtain ⟨p', hp'⟩ := ih ⟨hps, rfl⟩
      simp [(test_iff r a).2 ha, hp']

/-- the first part is as long as possible -/
theorem fullmatch_longest {r : Rgx} {rs : List Rgx} {s a a' : Str} {ps ps' : List Str} (h : fullmatch (r :: rs) s = some (a :: ps))
    (h' : Decomp (r :: rs) (a' :: ps') s) : a'.length ≤ a.length := by
  have hd' := h'
  obtain ⟨h1, h2⟩ := h'
  cases h1 with
  | cons ha hps =>
  unfold fullmatch at h
  obtain ⟨l1, ab, l2, he, hab, hno⟩ := List.findSome?_eq_some_iff.1 h
  have habs : ab.1 = a := by
    split at hab
    · cases hx : fullmatch rs ab.2 with
      | none => rw [hx] at hab; cases hab
      | some p => rw [hx] at hab; simp at hab; exact hab.1
    · cases hab
  by_contra hcon
  rw [Nat.not_le] at hcon
  have hm' : (a', ps'.flatten) ∈ cuts s := mem_cuts.2 (by simpa using h2)
  have hmem : (a', ps'.flatten) ∈ l1 := by
    rw [he] at hm'
    have hsorted : (cuts s).Pairwise (fun x y => x.1.length > y.1.length) := by
      unfold cuts
      rw [List.pairwise_map, List.pairwise_reverse]
      refine (List.pairwise_lt_range (n := s.length + 1)).imp_of_mem ?_
      intro i j hi hj hij
      rw [List.mem_range] at hi hj
      simp only [List.length_take]
      omega
    rw [he] at hsorted
    rcases List.mem_append.1 hm' with h | h
    · exact h
    · exfalso
      rcases List.mem_cons.1 h with h | h
      · rw [← h] at habs; simp only at habs; rw [habs] at hcon; omega
      · have := (List.pairwise_append.1 hsorted).2.1
        have := List.rel_of_pairwise_cons this h
        rw [habs] at this
        simp only at this
        omega
  have hn := hno _ hmem
  obtain ⟨p', hp'⟩ := fullmatch_complete (rs := rs) ⟨hps, rfl⟩
  simp [(test_iff r a').2 ha, hp'] at hn

theorem fullmatch_unique {rs : List Rgx} {s : Str} {parts : List Str} (h : Decomp rs parts s)
    (hu : ∀ parts', Decomp rs parts' s → parts' = parts) : fullmatch rs s = some parts := by
  obtain ⟨p, hp⟩ := fullmatch_complete h
  rw [hp, hu p (fullmatch_sound hp)]

theorem fullmatch_none {rs : List Rgx} {s : Str} : fullmatch rs s = Option.none ↔ ¬ ∃ parts, Decomp rs parts s := by
  constructor
  · rintro h ⟨parts, hp⟩
    obtain ⟨p, h'⟩ := fullmatch_complete hp
    rw [h] at h'; cases h'
  · intro h
    cases hx : fullmatch rs s with
    | none => rfl
    | some p => exact absurd ⟨p, fullmatch_sound hx⟩ h

end Verif

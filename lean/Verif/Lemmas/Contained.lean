import Verif.Model.Subgroup
import Verif.Spec.Coverage
import Verif.Lemmas.SelectorText
import Verif.Lemmas.SelectorOrder
/-! Row-wise meaning of the coverage loop; Python sets of selectors. -/
namespace Verif
open Spec

theorem mapM_cons_eq {α β : Type} (f : α → Except PyErr β) (a : α) (l : List α) :
    (a :: l).mapM f = (match f a with
      | .error e => .error e
      | .ok b => match l.mapM f with
        | .error e => .error e
        | .ok bs => .ok (b :: bs)) := by
  rw [List.mapM_cons]
  show (f a >>= fun b => l.mapM f >>= fun bs => pure (b :: bs)) = _
  cases f a with
  | error => rfl
  | ok b =>
    show (l.mapM f >>= fun bs => pure (b :: bs)) = _
    cases l.mapM f <;> rfl

theorem mapM_nil_eq {α β : Type} (f : α → Except PyErr β) : ([] : List α).mapM f = .ok [] := rfl

theorem mapM_ok_iff {α β : Type} (f : α → Except PyErr β) (l : List α) (r : List β) :
    l.mapM f = .ok r ↔ List.Forall₂ (fun a b => f a = .ok b) l r := by
  induction l generalizing r with
  | nil =>
    rw [mapM_nil_eq]
    constructor
    · intro h; cases h; exact .nil
    · intro h; cases h; rfl
  | cons a l ih =>
    rw [mapM_cons_eq]
    cases hf : f a with
    | error e =>
      constructor
      · intro h; cases h
      · intro h; cases h with | cons h1 h2 => rw [hf] at h1; cases h1
    | ok b =>
      simp only
      cases hm : l.mapM f with
      | error e =>
        constructor
        · intro h; cases h
        · intro h
          cases h with
          | cons h1 h2 => rw [(ih _).2 h2] at hm; cases hm
      | ok bs =>
        constructor
        · intro h; cases h; exact .cons hf ((ih bs).1 hm)
        · intro h
          cases h with
          | cons h1 h2 =>
            rw [hf] at h1; cases h1
            rw [(ih _).2 h2] at hm; cases hm; rfl

theorem mapM_ok_of_all {α β : Type} (f : α → Except PyErr β) (l : List α) (h : ∀ a ∈ l, ∃ b, f a = .ok b) :
    ∃ r, l.mapM f = .ok r := by
  induction l with
  | nil => exact ⟨[], rfl⟩
  | cons a l ih =>
    obtain ⟨b, hb⟩ := h a (by simp)
    obtain ⟨r, hr⟩ := ih (fun a ha => h a (by simp [ha]))
    exact ⟨b :: r, by rw [mapM_cons_eq, hb, hr]⟩

theorem mapM_ok_get {α β : Type} {f : α → Except PyErr β} {l : List α} {r : List β} (h : l.mapM f = .ok r) :
    r.length = l.length ∧ ∀ i (hi : i < l.length) (hi' : i < r.length), f l[i] = .ok r[i] := by
  have := (mapM_ok_iff f l r).1 h
  refine ⟨this.length_eq.symm, fun i hi hi' => ?_⟩
  exact (List.forall₂_iff_get.1 this).2 i hi hi'

theorem mapM_error {α β : Type} {f : α → Except PyErr β} {l : List α} {e : PyErr} (h : l.mapM f = .error e) :
    ∃ a ∈ l, f a = .error e := by
  induction l with
  | nil => cases h
  | cons a l ih =>
    rw [mapM_cons_eq] at h
    cases hf : f a with
    | error e' => rw [hf] at h; cases h; exact ⟨a, by simp, hf⟩
    | ok b =>
      rw [hf] at h
      simp only at h
      cases hm : l.mapM f with
      | error e' =>
        rw [hm] at h; cases h
        obtain ⟨a', h1, h2⟩ := ih hm
        exact ⟨a', by simp [h1], h2⟩
      | ok bs => rw [hm] at h; cases h

theorem Frame.col_length {df : Frame} (h : WF df) {n : Str} {c : List Val} (hc : df.col n = .ok c) : c.length = df.nrows := by
  unfold Frame.col at hc
  split at hc
  · rename_i c' hl
    cases hc
    obtain ⟨l1, l2, h1, _⟩ := List.lookup_eq_some_iff.1 hl
    exact h (n, c) (by simp [h1])
  · cases hc

theorem matchSeries_get {df : Frame} {s : Selector} {col : List Val} {m : List Bool} (hc : df.col s.attr = .ok col)
    (hm : s.matchSeries col = .ok m) : m.length = col.length ∧ ∀ i (h : i < m.length), m[i] = true ↔ MatchesAt df s i := by
  obtain ⟨h1, h2⟩ := mapM_ok_get hm
  refine ⟨h1, fun i h => ?_⟩
  have hl : df.cols.lookup s.attr = some col := by
    unfold Frame.col at hc
    split at hc
    · cases hc; assumption
    · cases hc
  have h3 := h2 i (by omega) h
  unfold MatchesAt
  constructor
  · intro hmi
    exact ⟨col, col[i]'(by omega), hl, List.getElem?_eq_getElem _, by rw [h3, hmi]⟩
  · rintro ⟨col', v, hl', hv, he⟩
    rw [hl] at hl'; cases hl'
    rw [List.getElem?_eq_getElem (by omega)] at hv
    cases hv
    rw [h3] at he
    exact Except.ok.inj he

theorem containedLoop_spec {df : Frame} (hw : WF df) (l : List Selector) (acc m : List Bool) (hacc : acc.length = df.nrows)
    (h : containedLoop df l acc = .ok m) :
    m.length = df.nrows ∧ ∀ i (h1 : i < m.length) (h2 : i < acc.length),
      (m[i] = true ↔ acc[i] = true ∧ ∀ s ∈ l, MatchesAt df s i) := by
  induction l generalizing acc with
  | nil =>
    cases h
    exact ⟨hacc, fun i _ _ => by simp⟩
  | cons s l ih =>
    rw [containedLoop] at h
    split at h
    · split at h
      · cases h
      · rename_i col hc
        split at h
        · cases h
        · rename_i ms hms
          obtain ⟨g1, g2⟩ := matchSeries_get hc hms
          have hcl := Frame.col_length hw hc
          obtain ⟨i1, i2⟩ := ih _ (by rw [List.length_zipWith]; omega) h
          refine ⟨i1, fun i h1 h2 => ?_⟩
          rw [i2 i h1 (by rw [List.length_zipWith]; omega)]
          simp only [List.getElem_zipWith, Bool.and_eq_true, List.mem_cons, forall_eq_or_imp]
          rw [g2 i (by omega), and_assoc]
    · rename_i hany
      cases h
      refine ⟨hacc, fun i h1 h2 => ⟨fun ht => ?_, fun ht => ht.1⟩⟩
      exfalso
      apply hany
      rw [List.any_eq_true]
      exact ⟨_, List.getElem_mem h1, ht⟩

theorem containedLoop_ok {df : Frame} (l : List Selector) (acc : List Bool)
    (h : ∀ s ∈ l, ∃ col m, df.col s.attr = .ok col ∧ s.matchSeries col = .ok m) :
    ∃ m, containedLoop df l acc = .ok m := by
  induction l generalizing acc with
  | nil => exact ⟨acc, rfl⟩
  | cons s l ih =>
    rw [containedLoop]
    split
    · obtain ⟨col, m, h1, h2⟩ := h s (by simp)
      simp only [h1, h2]
      exact ih _ (fun s hs => h s (by simp [hs]))
    · exact ⟨acc, rfl⟩

theorem containedLoop_error {df : Frame} (l : List Selector) (acc : List Bool) {e : PyErr}
    (h : containedLoop df l acc = .error e) :
    (e = .keyError ∧ ∃ s ∈ l, df.cols.lookup s.attr = none) ∨
    (∃ s ∈ l, ∃ col, df.cols.lookup s.attr = some col ∧ ∃ v ∈ col, s.op.evaluate v s.val = .error e) := by
  induction l generalizing acc with
  | nil => cases h
  | cons s l ih =>
    rw [containedLoop] at h
    split at h
    · split at h
      · rename_i e' hc
        cases h
        left
        unfold Frame.col at hc
        split at hc
        · cases hc
        · cases hc; rename_i hn; exact ⟨rfl, s, by simp, hn⟩
      · rename_i col hc
        split at h
        · rename_i e' hm
          cases h
          right
          obtain ⟨v, hv, he⟩ := mapM_error hm
          refine ⟨s, by simp, col, ?_, v, hv, he⟩
          unfold Frame.col at hc
          split at hc
          · cases hc; assumption
          · cases hc
        · rcases ih _ h with ⟨h1, s', h2, h3⟩ | ⟨s', h2, h3⟩
          · exact .inl ⟨h1, s', by simp [h2], h3⟩
          · exact .inr ⟨s', by simp [h2], h3⟩
    · cases h

theorem containedLoop_append {df : Frame} (l1 l2 : List Selector) (acc m : List Bool)
    (h : containedLoop df l1 acc = .ok m) (hany : m.any id = true) :
    containedLoop df (l1 ++ l2) acc = containedLoop df l2 m := by
  induction l1 generalizing acc with
  | nil => cases h; rfl
  | cons s l ih =>
    rw [containedLoop] at h
    rw [List.cons_append, containedLoop]
    split at h
    · rename_i hacc
      rw [if_pos hacc]
      split at h
      · cases h
      · rename_i col hc
        split at h
        · cases h
        · exact ih _ h
    · rename_i hacc
      cases h
      exact absurd hany hacc

/-! sets of selectors -/
namespace Pattern

theorem same_iff (a b : Selector) : same a b = true ↔ a = b := by
  unfold same
  rw [Bool.and_eq_true, beq_iff_eq, Selector.eq_iff_key]
  constructor
  · rintro ⟨h1, h2⟩
    simp only [Selector.key, EmbeddingLike.apply_eq_iff_eq, Prod.mk.injEq] at h2
    obtain ⟨ha, ho, _⟩ := h2
    have ho := Op.value_inj ho
    unfold Selector.str at h1
    rw [ha, ho, List.append_right_inj] at h1
    cases a; cases b
    simp only [Selector.mk.injEq] at *
    exact ⟨ha, ho, Selector.valText_inj h1⟩
  · rintro rfl; exact ⟨rfl, rfl⟩

theorem toSet_spec (l : List Selector) : (toSet l).Nodup ∧ ∀ s, s ∈ toSet l ↔ s ∈ l := by
  have : ∀ (l acc : List Selector), acc.Nodup →
      (l.foldl (fun acc x => if acc.any (same x) then acc else acc ++ [x]) acc).Nodup ∧
      ∀ s, s ∈ l.foldl (fun acc x => if acc.any (same x) then acc else acc ++ [x]) acc ↔ s ∈ acc ∨ s ∈ l := by
    intro l
    induction l with
    | nil => intro acc h; simp [h]
    | cons x l ih =>
      intro acc h
      simp only [List.foldl_cons]
      split
      · rename_i hany
        obtain ⟨h1, h2⟩ := ih acc h
        refine ⟨h1, fun s => ?_⟩
        rw [h2]
        rw [List.any_eq_true] at hany
        obtain ⟨y, hy, hxy⟩ := hany
        rw [same_iff] at hxy; subst hxy
        simp only [List.mem_cons]
        constructor
        · tauto
        · rintro (h | rfl | h) <;> tauto
      · rename_i hany
        have hx : x ∉ acc := by
          intro hx
          apply hany
          rw [List.any_eq_true]
          exact ⟨x, hx, (same_iff _ _).2 rfl⟩
        obtain ⟨h1, h2⟩ := ih (acc ++ [x]) (by
          rw [List.nodup_append]
          exact ⟨h, by simp, fun a ha b hb => by simp at hb; subst hb; rintro rfl; exact hx ha⟩)
        refine ⟨h1, fun s => ?_⟩
        rw [h2]
        simp [or_assoc]
  have h := this l [] List.nodup_nil
  refine ⟨h.1, fun s => ?_⟩
  have h2 := h.2 s
  simp only [List.not_mem_nil, false_or] at h2
  exact h2

theorem issubset_iff (a b : List Selector) : issubset a b = true ↔ ∀ s ∈ a, s ∈ b := by
  unfold issubset
  simp only [List.all_eq_true, List.any_eq_true, same_iff]
  constructor
  · intro h s hs
    obtain ⟨t, h1, h2⟩ := h s hs
    rwa [h2]
  · intro h s hs
    exact ⟨s, h s hs, rfl⟩

theorem isRefinement_iff (p q : Pattern) (b : Bool) :
    p.isRefinement q b = true ↔ (∀ s ∈ p.sels, s ∈ q.sels) ∧ ((∃ s ∈ q.sels, s ∉ p.sels) ∨ b = true) := by
  obtain ⟨np, mp⟩ := toSet_spec p.sels
  obtain ⟨nq, mq⟩ := toSet_spec q.sels
  have hsub : (∀ s ∈ toSet p.sels, s ∈ toSet q.sels) ↔ ∀ s ∈ p.sels, s ∈ q.sels := by
    simp only [mp, mq]
  unfold isRefinement
  simp only
  split
  · rename_i hlen
    simp only [Bool.false_eq_true, false_iff, not_and]
    intro h
    have := (List.subperm_of_subset np (hsub.2 h)).length_le
    omega
  · rename_i hlen
    split
    · rename_i heq
      unfold setEq at heq
      rw [Bool.and_eq_true, beq_iff_eq, issubset_iff] at heq
      have hperm : (toSet p.sels).Perm (toSet q.sels) :=
        (List.subperm_of_subset np heq.2).perm_of_length_le (by omega)
      have hno : ¬ ∃ s ∈ q.sels, s ∉ p.sels := by
        rintro ⟨s, h1, h2⟩
        exact h2 ((mp s).1 (hperm.mem_iff.2 ((mq s).2 h1)))
      simp only [hno, false_or]
      exact ⟨fun h => ⟨hsub.1 heq.2, h⟩, fun h => h.2⟩
    · rename_i hne
      rw [issubset_iff, hsub]
      refine ⟨fun h => ⟨h, .inl ?_⟩, fun h => h.1⟩
      by_contra hc
      apply hne
      unfold setEq
      rw [Bool.and_eq_true, beq_iff_eq, issubset_iff]
      refine ⟨?_, hsub.2 h⟩
      have h' : ∀ s ∈ toSet q.sels, s ∈ toSet p.sels := by
        intro s hs
        rw [mp]
        by_contra h2
        exact hc ⟨s, (mq s).1 hs, h2⟩
      have := (List.subperm_of_subset nq h').length_le
      omega

end Pattern
end Verif

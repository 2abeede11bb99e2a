import Verif.Lemmas.FPTree2
import Mathlib.Data.List.TakeWhile
/-! FP-growth enumerates the frequent sets of a database, each once, with exact counts. -/
set_option linter.unusedSectionVars false
set_option linter.unusedSimpArgs false
namespace Verif
open Classical

theorem allCombinations_eq {α : Type} (l : List α) : allCombinations l = l.sublists' := by
  induction l with
  | nil => rfl
  | cons a l ih => simp [allCombinations, ih, List.sublists'_cons]

theorem Thresholds.ok_mono (th : Thresholds) {c d : Cnt} (h : c ≤ d) (hc : th.ok c = true) : th.ok d = true := by
  obtain ⟨h1, h2⟩ := Prod.le_def.1 h
  cases th with
  | tpFp a b =>
    simp only [Thresholds.ok, Bool.and_eq_true, decide_eq_true_eq] at hc ⊢
    omega
  | n m =>
    simp only [Thresholds.ok, decide_eq_true_eq] at hc ⊢
    omega

namespace FPTree
variable {σ κ : Type} [DecidableEq σ] [DecidableEq κ]

structure Good (S : σ → Prop) (th : Thresholds) (R : σ → σ → Prop) (t : FPTree σ) (D : DB σ) : Prop where
  holds : Holds t D
  sorted : t.sorted = t.sortHeader.sorted
  inS : ∀ r ∈ D, ∀ s ∈ r.1, S s
  asymm : ∀ a b, R a b → ¬ R b a
  ordered : ∀ r ∈ D, r.1.Pairwise R
  freq : ∀ s, (∃ r ∈ D, s ∈ r.1) → th.ok (wsum D (fun l => s ∈ l)) = true

theorem nodup_of_pairwise {R : σ → σ → Prop} (ha : ∀ a b, R a b → ¬ R b a) {l : List σ} (h : l.Pairwise R) : l.Nodup := by
  apply List.Pairwise.imp _ h
  rintro a b hab rfl
  exact ha a a hab hab

theorem Good.nodup {S : σ → Prop} {th : Thresholds} {R : σ → σ → Prop} {t : FPTree σ} {D : DB σ} (g : Good S th R t D) :
    ∀ r ∈ D, r.1.Nodup := fun r hr => nodup_of_pairwise g.asymm (g.ordered r hr)

theorem mem_takeWhile {R : σ → σ → Prop} (ha : ∀ a b, R a b → ¬ R b a) {l : List σ} (h : l.Pairwise R) {a : σ} (hal : a ∈ l) (x : σ) :
    x ∈ l.takeWhile (· ≠ a) ↔ x ∈ l ∧ R x a := by
  induction l with
  | nil => simp at hal
  | cons s l ih =>
    rw [List.pairwise_cons] at h
    by_cases hs : s = a
    · subst hs
      simp only [ne_eq, not_true_eq_false, decide_false, Bool.false_eq_true, not_false_eq_true, List.takeWhile_cons_of_neg,
        List.not_mem_nil, false_iff, not_and, List.mem_cons]
      rintro (rfl | hx) hr
      · exact ha _ _ hr hr
      · exact ha _ _ hr (h.1 x hx)
    · have h' : a ∈ l := by
        rcases List.mem_cons.1 hal with h1 | h1
        · exact absurd h1.symm hs
        · exact h1
      rw [List.takeWhile_cons_of_pos (by simpa using hs)]
      simp only [List.mem_cons, ih h.2 h']
      constructor
      · rintro (rfl | ⟨h1, h2⟩)
        · exact ⟨Or.inl rfl, h.1 a h'⟩
        · exact ⟨Or.inr h1, h2⟩
      · rintro ⟨rfl | h1, h2⟩
        · exact Or.inl rfl
        · exact Or.inr ⟨h1, h2⟩

/-! ### conditional trees -/

/-- a conditional tree built from some nodes of the horizontal list of `a` -/
theorem condOf_good {key : σ → κ} {S : σ → Prop} (hk : InjOn key S) {th th0 : Thresholds} {R : σ → σ → Prop} {t : FPTree σ} {D : DB σ}
    (g : Good S th0 R t D) {a : σ} {base : List (List σ × Cnt)} (hb : ∀ b ∈ base, ∃ r ∈ D, b.1 ++ [a] <+: r.1) :
    ∃ R' D', Good S th R' (condOf key th base) D' ∧
      (∀ r' ∈ D', ∃ r ∈ D, r'.1.length < r.1.length) ∧
      (∀ X, X ≠ [] → (∃ r' ∈ D', ∀ x ∈ X, x ∈ r'.1) →
        supp D' X = wsum base (fun l => ∀ x ∈ X, x ∈ l) ∧ (∃ r ∈ D, ∀ x ∈ a :: X, x ∈ r.1) ∧ ∀ x ∈ X, R x a) ∧
      (∀ X, X ≠ [] → (∃ b ∈ base, ∀ x ∈ X, x ∈ b.1) → (∀ x ∈ X, th.ok (wsum base (fun l => x ∈ l)) = true) →
        ∃ r' ∈ D', ∀ x ∈ X, x ∈ r'.1) := by
  have hbS : ∀ b ∈ base, ∀ s ∈ b.1, S s := by
    intro b hbb s hs
    obtain ⟨r, hr, hp⟩ := hb b hbb
    exact g.inS r hr s (hp.subset (by simp [hs]))
  have hbn : ∀ b ∈ base, b.1.Nodup := by
    intro b hbb
    obtain ⟨r, hr, hp⟩ := hb b hbb
    exact (g.nodup r hr).sublist ((List.sublist_append_left _ _).trans hp.sublist)
  have hbR : ∀ b ∈ base, ∀ s ∈ b.1, R s a := by
    intro b hbb s hs
    obtain ⟨r, hr, hp⟩ := hb b hbb
    have h1 := (g.ordered r hr).sublist hp.sublist
    rw [List.pairwise_append] at h1
    exact h1.2.2 s hs a (by simp)
  set freq := (allDict key base).filter (fun e => th.ok e.2.2.1) with hfreq
  have hfok : DictOK key S freq := (allDict_spec hk hbS).1.filter _
  have hfm : ∀ s, s ∈ freq.map (·.2.1) ↔ (∃ b ∈ base, s ∈ b.1) ∧ th.ok (wsum base (fun l => s ∈ l)) = true :=
    mem_freqDict hk th hbS hbn
  set f : List σ → List σ := fun l => sortRow key freq (validSelectors freq (l.map key)) with hf
  have hfmem : ∀ b ∈ base, ∀ s, s ∈ f b.1 ↔ s ∈ b.1 ∧ s ∈ freq.map (·.2.1) := by
    intro b hbb s
    rw [hf]
    simp only
    rw [(sortRow_perm key freq _).mem_iff, validSelectors_eq hfok hk (hbS b hbb)]
    simp
  set base' := base.filter (fun b => b.1 ≠ []) with hbase'
  have hb' : ∀ b ∈ base', b ∈ base := fun b h => (List.mem_filter.1 h).1
  set D' : DB σ := base'.map (fun b => (f b.1, b.2)) with hD'
  have hsupp : ∀ X, X ≠ [] → (∀ x ∈ X, x ∈ freq.map (·.2.1)) →
      wsum D' (fun l => ∀ x ∈ X, x ∈ l) = wsum base (fun l => ∀ x ∈ X, x ∈ l) := by
    intro X hX hXf
    rw [hD', wsum_map]
    have : wsum base' (fun b => ∀ x ∈ X, x ∈ f b) = wsum base' (fun b => ∀ x ∈ X, x ∈ b) := by
      apply wsum_congr
      intro e he
      constructor
      · intro h x hx; exact ((hfmem e (hb' e he) x).1 (h x hx)).1
      · intro h x hx; exact (hfmem e (hb' e he) x).2 ⟨h x hx, hXf x hx⟩
    rw [this, hbase']
    apply wsum_filter
    intro e he h
    obtain ⟨x, X', rfl⟩ := List.exists_cons_of_ne_nil hX
    have := h x (by simp)
    have : e.1 ≠ [] := List.ne_nil_of_mem this
    simpa using this
  have hD'mem : ∀ r' ∈ D', ∃ b ∈ base, b.1 ≠ [] ∧ r' = (f b.1, b.2) := by
    intro r' hr'
    obtain ⟨b, hbb, rfl⟩ := List.mem_map.1 hr'
    obtain ⟨h1, h2⟩ := List.mem_filter.1 hbb
    exact ⟨b, h1, by simpa using h2, rfl⟩
  have hone : ∀ s, wsum D' (fun l => s ∈ l) = wsum D' (fun l => ∀ x ∈ [s], x ∈ l) := by
    intro s; apply wsum_congr; intro e _; simp
  have hone' : ∀ s, wsum base (fun l => s ∈ l) = wsum base (fun l => ∀ x ∈ [s], x ∈ l) := by
    intro s; apply wsum_congr; intro e _; simp
  refine ⟨rel key freq, D', ⟨?_, ?_, ?_, rel_asymm key freq, ?_, ?_⟩, ?_, ?_, ?_⟩
  · have := holds_sortHeader (holds_fold D')
    rw [hD', List.foldl_map] at this
    exact this
  · rfl
  · intro r' hr' s hs
    obtain ⟨b, hbb, _, rfl⟩ := hD'mem r' hr'
    exact hbS b hbb s ((hfmem b hbb s).1 hs).1
  · intro r' hr'
    obtain ⟨b, hbb, _, rfl⟩ := hD'mem r' hr'
    apply sortRow_pairwise hfok hk
    · intro s hs
      rw [validSelectors_eq hfok hk (hbS b hbb)] at hs
      simpa using (List.mem_filter.1 hs).2
    · rw [validSelectors_eq hfok hk (hbS b hbb)]
      exact (hbn b hbb).filter _
  · rintro s ⟨r', hr', hs⟩
    obtain ⟨b, hbb, _, rfl⟩ := hD'mem r' hr'
    have hsf := ((hfmem b hbb s).1 hs).2
    rw [hone, hsupp [s] (by simp) (by simpa using hsf), ← hone']
    exact ((hfm s).1 hsf).2
  · intro r' hr'
    obtain ⟨b, hbb, _, rfl⟩ := hD'mem r' hr'
    obtain ⟨r, hr, hp⟩ := hb b hbb
    refine ⟨r, hr, ?_⟩
    have h1 : (f b.1).length ≤ b.1.length := by
      rw [hf]
      simp only
      rw [(sortRow_perm key freq _).length_eq, validSelectors_eq hfok hk (hbS b hbb)]
      exact List.length_filter_le _ _
    have h2 := hp.length_le
    simp at h2
    simp only
    omega
  · rintro X hX ⟨r', hr', hXr⟩
    obtain ⟨b, hbb, _, rfl⟩ := hD'mem r' hr'
    have hXb : ∀ x ∈ X, x ∈ b.1 := fun x hx => ((hfmem b hbb x).1 (hXr x hx)).1
    have hXR : ∀ x ∈ X, R x a := fun x hx => hbR b hbb x (hXb x hx)
    refine ⟨?_, ?_, hXR⟩
    · exact hsupp X hX (fun x hx => ((hfmem b hbb x).1 (hXr x hx)).2)
    · obtain ⟨r, hr, hp⟩ := hb b hbb
      refine ⟨r, hr, ?_⟩
      intro x hx
      apply hp.subset
      rcases List.mem_cons.1 hx with rfl | hx
      · simp
      · simp [hXb x hx]
  · rintro X hX ⟨b, hbb, hXb⟩ hok
    refine ⟨(f b.1, b.2), ?_, ?_⟩
    · apply List.mem_map.2
      refine ⟨_, List.mem_filter.2 ⟨hbb, ?_⟩, rfl⟩
      obtain ⟨x, X', rfl⟩ := List.exists_cons_of_ne_nil hX
      have := List.ne_nil_of_mem (hXb x (by simp))
      simpa using this
    · intro x hx
      rw [hfmem _ hbb]
      exact ⟨hXb x hx, (hfm x).2 ⟨⟨_, hbb, hXb x hx⟩, hok x hx⟩⟩

theorem horizontal_prefix {t : FPTree σ} {D : DB σ} (h : Holds t D) (a : σ) :
    ∀ b ∈ t.horizontal a, ∃ r ∈ D, b.1 ++ [a] <+: r.1 :=
  fun b hb => (mem_horizontal h a b.1).1 ⟨b.2, hb⟩

theorem horizontal_wsum {S : σ → Prop} {th : Thresholds} {R : σ → σ → Prop} {t : FPTree σ} {D : DB σ}
    (g : Good S th R t D) (a : σ) {X : List σ} (hX : ∀ x ∈ X, R x a) :
    wsum (t.horizontal a) (fun l => ∀ x ∈ X, x ∈ l) = supp D (a :: X) := by
  rw [wsum_horizontal g.holds g.nodup]
  apply wsum_congr
  intro e he
  constructor
  · rintro ⟨h1, h2⟩ x hx
    rcases List.mem_cons.1 hx with rfl | hx
    · exact h1
    · exact ((mem_takeWhile g.asymm (g.ordered e he) h1 x).1 (h2 x hx)).1
  · intro h
    have h1 := h a (by simp)
    refine ⟨h1, fun x hx => ?_⟩
    exact (mem_takeWhile g.asymm (g.ordered e he) h1 x).2 ⟨h x (by simp [hx]), hX x hx⟩

theorem cond_good {key : σ → κ} {S : σ → Prop} (hk : InjOn key S) {th th0 : Thresholds} {R : σ → σ → Prop} {t : FPTree σ} {D : DB σ}
    (g : Good S th0 R t D) {a : σ} (hal : a ∈ t.header.map (·.1)) :
    ∃ R' D', Good S th R' (t.condTree key th a) D' ∧
      (∀ r' ∈ D', ∃ r ∈ D, r'.1.length < r.1.length) ∧
      (∀ X, X ≠ [] → (∃ r' ∈ D', ∀ x ∈ X, x ∈ r'.1) →
        supp D' X = supp D (a :: X) ∧ (∃ r ∈ D, ∀ x ∈ a :: X, x ∈ r.1) ∧ ∀ x ∈ X, R x a) ∧
      (∀ X, X ≠ [] → (∀ x ∈ X, R x a) → (∃ r ∈ D, ∀ x ∈ a :: X, x ∈ r.1) → th.ok (supp D (a :: X)) = true →
        ∃ r' ∈ D', ∀ x ∈ X, x ∈ r'.1) := by
  have hdef : t.condTree key th a = condOf key th (t.horizontal a) := by
    unfold condTree
    rw [if_pos (by simpa only [List.contains_iff_mem] using hal)]
  obtain ⟨R', D', g1, g2, g3, g4⟩ := condOf_good (th := th) hk g (horizontal_prefix g.holds a)
  rw [hdef]
  refine ⟨R', D', g1, g2, ?_, ?_⟩
  · intro X hX hXr
    obtain ⟨h1, h2, h3⟩ := g3 X hX hXr
    exact ⟨h1.trans (horizontal_wsum g a h3), h2, h3⟩
  · rintro X hX hXR ⟨r, hr, hXr⟩ hok
    have har := hXr a (by simp)
    -- the prefix of r before a is in the base
    have hpre : r.1.takeWhile (· ≠ a) ++ [a] <+: r.1 := by
      have : r.1 = r.1.takeWhile (· ≠ a) ++ r.1.dropWhile (· ≠ a) := (List.takeWhile_append_dropWhile).symm
      obtain ⟨y, ys, hy⟩ : ∃ y ys, r.1.dropWhile (· ≠ a) = y :: ys := by
        cases hd : r.1.dropWhile (· ≠ a) with
        | nil =>
          rw [List.dropWhile_eq_nil_iff] at hd
          have := hd a har
          simp at this
        | cons y ys => exact ⟨y, ys, rfl⟩
      have hya : y = a := by
        have := List.head_dropWhile_not (fun x => decide (x ≠ a)) (l := r.1) (by rw [hy]; simp)
        simp only [hy, List.head_cons] at this
        simpa using this
      conv_rhs => rw [this, hy, hya]
      exact ⟨ys, by simp⟩
    obtain ⟨c, hc⟩ := (mem_horizontal g.holds a _).2 ⟨r, hr, hpre⟩
    have hXb : ∀ x ∈ X, x ∈ r.1.takeWhile (· ≠ a) := fun x hx =>
      (mem_takeWhile g.asymm (g.ordered r hr) har x).2 ⟨hXr x (by simp [hx]), hXR x hx⟩
    refine g4 X hX ⟨_, hc, hXb⟩ ?_
    intro x hx
    have hone' : wsum (t.horizontal a) (fun l => x ∈ l) = wsum (t.horizontal a) (fun l => ∀ y ∈ [x], y ∈ l) := by
      apply wsum_congr; intro e _; simp
    apply th.ok_mono _ hok
    rw [hone', horizontal_wsum g a (X := [x]) (by simpa using hXR x hx)]
    apply wsum_mono
    intro e _ h y hy
    simp only [List.mem_cons, List.not_mem_nil, or_false] at hy
    rcases hy with rfl | rfl
    · exact h _ (by simp)
    · exact h _ (by simp [hx])

/-! ### single paths -/

theorem singlePathLoop_sound {t : FPTree σ} {D : DB σ} (h : Holds t D) (fuel : Nat) (p : List σ)
    (ht : t.singlePathLoop fuel p = true) (hp : ∀ r ∈ D, r.1 <+: p ∨ p <+: r.1) : ∃ P, ∀ r ∈ D, r.1 <+: P := by
  induction fuel generalizing p with
  | zero => simp [singlePathLoop] at ht
  | succ fuel ih =>
    unfold singlePathLoop at ht
    cases hc : t.children p with
    | nil =>
      refine ⟨p, fun r hr => ?_⟩
      rcases hp r hr with h1 | ⟨u, hu⟩
      · exact h1
      · cases u with
        | nil => rw [← hu]; simp
        | cons x u =>
          exfalso
          have : x ∈ t.children p := by
            rw [mem_children, mem_nodes h]
            exact ⟨by simp, r, hr, ⟨u, by rw [← hu]; simp⟩⟩
          rw [hc] at this
          simp at this
    | cons s l =>
      cases l with
      | cons s' l => rw [hc] at ht; simp at ht
      | nil =>
        rw [hc] at ht
        simp only at ht
        apply ih _ ht
        intro r hr
        rcases hp r hr with h1 | ⟨u, hu⟩
        · left; exact h1.trans (List.prefix_append _ _)
        · cases u with
          | nil => left; rw [← hu]; simp
          | cons x u =>
            have : x ∈ t.children p := by
              rw [mem_children, mem_nodes h]
              exact ⟨by simp, r, hr, ⟨u, by rw [← hu]; simp⟩⟩
            rw [hc] at this
            simp at this
            right
            exact ⟨u, by rw [← hu, this]; simp⟩

theorem nodup_children {t : FPTree σ} {D : DB σ} (h : Holds t D) (p : List σ) : (t.children p).Nodup := by
  have hn := nodup_nodes h
  unfold children
  rw [List.Nodup, List.pairwise_map] at hn
  rw [List.Nodup, List.pairwise_filterMap]
  refine hn.imp ?_
  intro e f hne a ha b hb hab
  subst hab
  apply hne
  have : ∀ e : List σ × Cnt, (match e.1.getLast? with
      | some s => if e.1 = p ++ [s] then some s else none
      | none => none) = some a → e.1 = p ++ [a] := by
    intro e he
    split at he
    · split at he
      · rename_i h1; cases he; exact h1
      · cases he
    · cases he
  rw [this e ha, this f hb]

theorem singlePathLoop_complete {t : FPTree σ} {D : DB σ} (h : Holds t D) {P : List σ} (hP : ∀ r ∈ D, r.1 <+: P) (m : Nat)
    (hm : ∀ r ∈ D, r.1.length ≤ m) (fuel : Nat) (p : List σ) (hp : p <+: P) (hf : m < p.length + fuel) :
    t.singlePathLoop fuel p = true ∨ m < p.length := by
  induction fuel generalizing p with
  | zero => right; simpa using hf
  | succ fuel ih =>
    unfold singlePathLoop
    have hn := nodup_children h p
    have hch : ∀ s ∈ t.children p, p ++ [s] <+: P ∧ p.length < m := by
      intro s hs
      rw [mem_children, mem_nodes h] at hs
      obtain ⟨_, r, hr, hpr⟩ := hs
      refine ⟨hpr.trans (hP r hr), ?_⟩
      have := hpr.length_le
      have := hm r hr
      simp at this ‹(p ++ [s]).length ≤ _›
      omega
    cases hc : t.children p with
    | nil => left; rfl
    | cons s l =>
      rw [hc] at hch hn
      obtain ⟨h1, h2⟩ := hch s (by simp)
      cases l with
      | nil =>
        simp only
        rcases ih (p ++ [s]) h1 (by simp; omega) with h3 | h3
        · left; exact h3
        · simp at h3; omega
      | cons s' l =>
        exfalso
        obtain ⟨h3, _⟩ := hch s' (by simp)
        have : p ++ [s] = p ++ [s'] := by
          rcases List.prefix_or_prefix_of_prefix h1 h3 with hx | hx
          · exact hx.eq_of_length (by simp)
          · exact (hx.eq_of_length (by simp)).symm
        simp at this
        simp [this] at hn

/-- a tree is a single path exactly when all its nodes are on one path -/
theorem singlePath_iff {t : FPTree σ} {D : DB σ} (h : Holds t D) :
    t.singlePath = true ↔ ∀ p ∈ t.nodes.map (·.1), ∀ q ∈ t.nodes.map (·.1), p <+: q ∨ q <+: p := by
  constructor
  · intro hs p hp q hq
    obtain ⟨P, hP⟩ := singlePathLoop_sound h _ [] hs (fun r _ => Or.inr (by simp))
    rw [mem_nodes h] at hp hq
    obtain ⟨_, r, hr, h1⟩ := hp
    obtain ⟨_, r', hr', h2⟩ := hq
    exact List.prefix_or_prefix_of_prefix (h1.trans (hP r hr)) (h2.trans (hP r' hr'))
  · intro hall
    have hrow : ∀ r ∈ D, ∀ r' ∈ D, r.1 <+: r'.1 ∨ r'.1 <+: r.1 := by
      intro r hr r' hr'
      by_cases h1 : r.1 = []
      · left; rw [h1]; simp
      by_cases h2 : r'.1 = []
      · right; rw [h2]; simp
      exact hall _ ((mem_nodes h _).2 ⟨h1, r, hr, List.prefix_rfl⟩) _ ((mem_nodes h _).2 ⟨h2, r', hr', List.prefix_rfl⟩)
    have : ∃ P, ∀ r ∈ D, r.1 <+: P ∧ (P = [] ∨ ∃ r' ∈ D, r'.1 = P) := by
      clear h hall
      induction D with
      | nil => exact ⟨[], by simp⟩
      | cons r D ih =>
        obtain ⟨P, hP⟩ := ih (fun a ha b hb => hrow a (by simp [ha]) b (by simp [hb]))
        by_cases hD : D = []
        · subst hD; exact ⟨r.1, by simp⟩
        · obtain ⟨d, hd⟩ := List.exists_mem_of_ne_nil D hD
          have hPP := (hP d hd).2
          have hcmp : r.1 <+: P ∨ P <+: r.1 := by
            rcases hPP with rfl | ⟨r', hr', rfl⟩
            · right; simp
            · exact hrow r (by simp) r' (by simp [hr'])
          rcases hcmp with hc | hc
          · refine ⟨P, fun a ha => ⟨?_, ?_⟩⟩
            · rcases List.mem_cons.1 ha with rfl | ha
              · exact hc
              · exact (hP a ha).1
            · rcases hPP with h0 | ⟨r', hr', h0⟩
              · left; exact h0
              · right; exact ⟨r', by simp [hr'], h0⟩
          · refine ⟨r.1, fun a ha => ⟨?_, Or.inr ⟨r, by simp, rfl⟩⟩⟩
            rcases List.mem_cons.1 ha with rfl | ha
            · exact List.prefix_rfl
            · exact (hP a ha).1.trans hc
    obtain ⟨P, hP⟩ := this
    by_cases hD : D = []
    · unfold singlePath
      rcases singlePathLoop_complete h (P := []) (by rw [hD]; simp) 0 (by rw [hD]; simp) (t.nodes.length + 1) [] (by simp) (by simp) with h1 | h1
      · exact h1
      · simp at h1
    · obtain ⟨d, hd⟩ := List.exists_mem_of_ne_nil D hD
      have hlen : P.length ≤ t.nodes.length := by
        have hsub : (List.range P.length).map (fun k => P.take (k + 1)) ⊆ t.nodes.map (·.1) := by
          intro q hq
          obtain ⟨k, hk, rfl⟩ := List.mem_map.1 hq
          have hk := List.mem_range.1 hk
          rw [mem_nodes h]
          rcases (hP d hd).2 with h0 | ⟨r', hr', h0⟩
          · rw [h0] at hk; simp at hk
          · refine ⟨?_, r', hr', by rw [h0]; exact List.take_prefix _ _⟩
            intro h1
            have := congrArg List.length h1
            simp at this
            rw [this] at hk; simp at hk
        have hnd : ((List.range P.length).map (fun k => P.take (k + 1))).Nodup := by
          rw [List.nodup_map_iff_inj_on List.nodup_range]
          intro a ha b hb hab
          have ha := List.mem_range.1 ha
          have hb := List.mem_range.1 hb
          have := congrArg List.length hab
          simp at this
          omega
        have := (List.subperm_of_subset hnd hsub).length_le
        simpa using this
      unfold singlePath
      rcases singlePathLoop_complete h (fun r hr => (hP r hr).1) P.length (fun r hr => (hP r hr).1.length_le) (t.nodes.length + 1) [] (by simp) (by simp; omega) with h1 | h1
      · exact h1
      · simp at h1

theorem sorted_perm {t : FPTree σ} (h : t.sorted = t.sortHeader.sorted) : t.sorted.Perm (t.header.map (·.1)) := by
  rw [h]
  exact stableSort_perm _

theorem sorted_pairwise {t : FPTree σ} (h : t.sorted = t.sortHeader.sorted) :
    t.sorted.Pairwise (fun a b => t.headerN a ≤ t.headerN b) := by
  rw [h]
  have : (stableSort (fun a b => decide (t.headerN a ≤ t.headerN b)) (t.header.map (·.1))).Pairwise
      (fun a b => decide (t.headerN a ≤ t.headerN b) = true) := by
    apply pairwise_stableSort
    · intro a b c; simp; omega
    · intro a b; simp; omega
  exact this.imp (by simp)

/-- an enumeration has exact counts, meets `th0`, and has everything that meets `th` -/
structure Exact2 (th0 th : Thresholds) (D : DB σ) (F : List (Emission σ)) : Prop where
  sound : ∀ e ∈ F, e.1 ≠ [] ∧ e.1.Nodup ∧ (∃ r ∈ D, ∀ x ∈ e.1, x ∈ r.1) ∧ e.2 = supp D e.1 ∧ th0.ok e.2 = true
  complete : ∀ X, X ≠ [] → (∃ r ∈ D, ∀ x ∈ X, x ∈ r.1) → th.ok (supp D X) = true → ∃ e ∈ F, ∀ x, x ∈ e.1 ↔ x ∈ X
  distinct : F.Pairwise (fun e f => ¬ ∀ x, x ∈ e.1 ↔ x ∈ f.1)

/-- an enumeration is exact -/
abbrev Exact (th : Thresholds) (D : DB σ) (F : List (Emission σ)) : Prop := Exact2 th th D F

/-- the last element of `l` that satisfies `P` -/
theorem exists_last {l : List σ} {P : σ → Prop} {y : σ} (hy : y ∈ l) (hP : P y) :
    ∃ u z v, l = u ++ z :: v ∧ P z ∧ ∀ x ∈ v, ¬ P x := by
  induction l with
  | nil => simp at hy
  | cons s l ih =>
    by_cases h : ∃ x ∈ l, P x
    · obtain ⟨x, hx, hPx⟩ := h
      by_cases hyl : y ∈ l
      · obtain ⟨u, z, v, h1, h2, h3⟩ := ih hyl
        exact ⟨s :: u, z, v, by simp [h1], h2, h3⟩
      · have : ∀ w, w ∈ l → P w → ∃ u z v, l = u ++ z :: v ∧ P z ∧ ∀ x ∈ v, ¬ P x := by
          clear ih hy hyl hx hPx x
          induction l with
          | nil => simp
          | cons s l ih2 =>
            intro w hw hPw
            by_cases h' : ∃ x ∈ l, P x
            · obtain ⟨x, hx, hPx⟩ := h'
              obtain ⟨u, z, v, h1, h2, h3⟩ := ih2 x hx hPx
              exact ⟨s :: u, z, v, by simp [h1], h2, h3⟩
            · have : w = s := by
                rcases List.mem_cons.1 hw with h1 | h1
                · exact h1
                · exact absurd ⟨w, h1, hPw⟩ h'
              exact ⟨[], s, l, rfl, this ▸ hPw, fun x hx hPx => h' ⟨x, hx, hPx⟩⟩
        obtain ⟨u, z, v, h1, h2, h3⟩ := this x hx hPx
        exact ⟨s :: u, z, v, by simp [h1], h2, h3⟩
    · have : y = s := by
        rcases List.mem_cons.1 hy with h1 | h1
        · exact h1
        · exact absurd ⟨y, h1, hP⟩ h
      exact ⟨[], s, l, rfl, this ▸ hP, fun x hx hPx => h ⟨x, hx, hPx⟩⟩

theorem eq_filter_of_sublist {l Z : List σ} (hn : l.Nodup) (hZ : Z.Sublist l) : Z = l.filter (fun s => decide (s ∈ Z)) := by
  induction hZ with
  | slnil => rfl
  | @cons l1 l2 a h12 ih =>
    rw [List.nodup_cons] at hn
    rw [List.filter_cons_of_neg]
    · exact ih hn.2
    · simp only [decide_eq_true_eq]
      exact fun hh => hn.1 (h12.subset hh)
  | @cons_cons l1 l2 a h12 ih =>
    rw [List.nodup_cons] at hn
    rw [List.filter_cons_of_pos (by simp)]
    congr 1
    refine (ih hn.2).trans ?_
    apply List.filter_congr
    intro x hx
    have : x ≠ a := fun hh => hn.1 (hh ▸ hx)
    simp [this]

theorem singlePath_exact2 {S : σ → Prop} {th0 th : Thresholds} {R : σ → σ → Prop} {t : FPTree σ} {D : DB σ}
    (g : Good S th0 R t D) (hs : t.singlePath = true) : Exact2 th0 th D (t.singlePathResults []) := by
  obtain ⟨P, hP⟩ := singlePathLoop_sound g.holds _ [] hs (fun r _ => Or.inr (by simp))
  have hperm := sorted_perm g.sorted
  have hsn : t.sorted.Nodup := hperm.nodup_iff.2 (nodup_header g.holds)
  have hmem : ∀ s, s ∈ t.sorted ↔ ∃ r ∈ D, s ∈ r.1 := fun s => by rw [hperm.mem_iff, mem_header g.holds]
  have hhd : ∀ s, s ∈ t.sorted → t.header.lookup s = some (wsum D (fun l => s ∈ l)) := by
    intro s hs'
    rw [header_lookup g.holds g.nodup, if_pos ((hmem s).1 hs')]
  -- a longest transaction contains everything
  have hlong : D ≠ [] → ∃ r0 ∈ D, ∀ r ∈ D, ∀ x ∈ r.1, x ∈ r0.1 := by
    intro hne
    have : ∀ L : DB σ, L ≠ [] → (∀ r ∈ L, r.1 <+: P) → ∃ r0 ∈ L, ∀ r ∈ L, ∀ x ∈ r.1, x ∈ r0.1 := by
      intro L
      induction L with
      | nil => simp
      | cons b L ih =>
        intro _ hL
        by_cases hLn : L = []
        · subst hLn; exact ⟨b, by simp, by simp⟩
        · obtain ⟨r0, hr0, h0⟩ := ih hLn (fun r hr => hL r (by simp [hr]))
          rcases List.prefix_or_prefix_of_prefix (hL b (by simp)) (hL r0 (by simp [hr0])) with h | h
          · refine ⟨r0, by simp [hr0], fun r hr x hx => ?_⟩
            rcases List.mem_cons.1 hr with rfl | hr
            · exact h.subset hx
            · exact h0 r hr x hx
          · refine ⟨b, by simp, fun r hr x hx => ?_⟩
            rcases List.mem_cons.1 hr with rfl | hr
            · exact hx
            · exact h.subset (h0 r hr x hx)
    exact this D hne hP
  have hcnt : ∀ X, X ≠ [] → X.Sublist t.sorted → t.leastFrequentCnt X = supp D X := by
    intro X hX hXs
    obtain ⟨y, X', hyX⟩ := List.exists_cons_of_ne_nil hX
    have hyX' : y ∈ X := by rw [hyX]; simp
    have hys : y ∈ t.sorted := hXs.subset hyX'
    obtain ⟨r1, hr1, hyr1⟩ := (hmem y).1 hys
    have hD : D ≠ [] := List.ne_nil_of_mem hr1
    obtain ⟨r0, hr0, h0⟩ := hlong hD
    have hXr0 : ∀ x ∈ X, x ∈ r0.1 := fun x hx => by
      obtain ⟨r, hr, hxr⟩ := (hmem x).1 (hXs.subset hx)
      exact h0 r hr x hxr
    -- deepest element
    obtain ⟨u, z, v, hr0eq, hzX, hvX⟩ := exists_last (P := (· ∈ X)) (hXr0 y hyX') hyX'
    have hz : ∀ r ∈ D, z ∈ r.1 → ∀ x ∈ X, x ∈ r.1 := by
      intro r hr hzr x hx
      -- r.1 and r0.1 are both prefixes of P and r contains z
      rcases List.prefix_or_prefix_of_prefix (hP r hr) (hP r0 hr0) with h | h
      · -- r.1 prefix of u ++ z :: v containing z
        obtain ⟨w, hw⟩ := h
        have hn0 := g.nodup r0 hr0
        have hxu : x ∈ u ++ [z] := by
          have := hXr0 x hx
          rw [hr0eq] at this
          rcases List.mem_append.1 this with h1 | h1
          · simp [h1]
          · rcases List.mem_cons.1 h1 with h2 | h2
            · simp [h2]
            · exact absurd hx (hvX x h2)
        have hpre : u ++ [z] <+: r.1 := by
          have hp1 : u ++ [z] <+: r0.1 := ⟨v, by rw [hr0eq]; simp⟩
          have hp2 : r.1 <+: r0.1 := ⟨w, hw⟩
          rcases List.prefix_or_prefix_of_prefix hp1 hp2 with h2 | h2
          · exact h2
          · -- r.1 is a prefix of u ++ [z] containing z
            obtain ⟨w2, hw2⟩ := h2
            cases hw2l : w2.reverse with
            | nil =>
              have : w2 = [] := by simpa using hw2l
              rw [this] at hw2
              simp only [List.append_nil] at hw2
              rw [hw2]
            | cons q w3 =>
              exfalso
              have hw2' : w2 = w3.reverse ++ [q] := by
                have := congrArg List.reverse hw2l
                simpa using this
              rw [hw2', ← List.append_assoc] at hw2
              have hq := (List.append_inj' hw2 rfl)
              have hzu : z ∈ u := by
                rw [← hq.1]; simp [hzr]
              rw [hr0eq] at hn0
              rw [List.nodup_append] at hn0
              exact hn0.2.2 z hzu z (by simp) rfl
        exact hpre.subset hxu
      · exact h.subset (hXr0 x hx)
    have hsz : supp D X = wsum D (fun l => z ∈ l) := by
      apply wsum_congr
      intro e he
      exact ⟨fun h => h z hzX, fun h => hz e he h⟩
    -- the selector found
    have hfind : ∃ m, t.sorted.find? (fun s => X.contains s) = some m := by
      cases hf : t.sorted.find? (fun s => X.contains s) with
      | some m => exact ⟨m, rfl⟩
      | none =>
        rw [List.find?_eq_none] at hf
        have := hf y hys
        simp only [List.contains_iff_mem] at this
        exact absurd hyX' this
    obtain ⟨m, hm⟩ := hfind
    have hmX : m ∈ X := by
      have := List.find?_some hm
      simpa only [List.contains_iff_mem] using this
    have hms : m ∈ t.sorted := List.mem_of_find?_eq_some hm
    have hzs : z ∈ t.sorted := hXs.subset hzX
    have hle : t.headerN m ≤ t.headerN z := by
      rw [List.find?_eq_some_iff_append] at hm
      obtain ⟨_, as, bs, heq, hnot⟩ := hm
      have hzin : z ∈ m :: bs := by
        rw [heq] at hzs
        rcases List.mem_append.1 hzs with h | h
        · have := hnot z h
          simp only [Bool.not_eq_true'] at this
          have h2 : X.contains z = true := by simpa only [List.contains_iff_mem] using hzX
          rw [h2] at this
          simp at this
        · exact h
      rcases List.mem_cons.1 hzin with rfl | h
      · exact le_refl _
      · have := sorted_pairwise g.sorted
        rw [heq, List.pairwise_append, List.pairwise_cons] at this
        exact this.2.1.1 z h
    unfold leastFrequentCnt
    rw [hm]
    simp only
    rw [hhd m hms, hsz]
    simp only [Option.getD_some]
    unfold headerN at hle
    rw [hhd m hms, hhd z hzs] at hle
    simp only at hle
    have hge : wsum D (fun l => z ∈ l) ≤ wsum D (fun l => m ∈ l) := by
      apply wsum_mono
      intro e he hze
      exact hz e he hze m hmX
    obtain ⟨h1, h2⟩ := Prod.le_def.1 hge
    ext
    · omega
    · omega
  have hall : ∀ X, X ∈ (allCombinations t.sorted).erase [] ↔ X ≠ [] ∧ X.Sublist t.sorted := by
    intro X
    have hn : (allCombinations t.sorted).Nodup := by rw [allCombinations_eq]; exact List.nodup_sublists'.2 hsn
    rw [hn.mem_erase_iff, allCombinations_eq, List.mem_sublists']
  constructor
  · intro e he
    obtain ⟨X, hX, rfl⟩ := List.mem_map.1 he
    obtain ⟨h1, h2⟩ := (hall X).1 hX
    obtain ⟨y, X', hyX⟩ := List.exists_cons_of_ne_nil h1
    have hys : y ∈ t.sorted := h2.subset (by rw [hyX]; simp)
    obtain ⟨r1, hr1, _⟩ := (hmem y).1 hys
    obtain ⟨r0, hr0, h0⟩ := hlong (List.ne_nil_of_mem hr1)
    simp only [List.append_nil]
    refine ⟨h1, hsn.sublist h2, ⟨r0, hr0, fun x hx => ?_⟩, hcnt X h1 h2, ?_⟩
    · obtain ⟨r, hr, hxr⟩ := (hmem x).1 (h2.subset hx)
      exact h0 r hr x hxr
    · -- frequency: the counters are those of some selector of the header
      unfold leastFrequentCnt
      cases hf : t.sorted.find? (fun s => X.contains s) with
      | some m =>
        simp only
        have hms : m ∈ t.sorted := List.mem_of_find?_eq_some hf
        rw [hhd m hms]
        exact g.freq m ((hmem m).1 hms)
      | none =>
        rw [List.find?_eq_none] at hf
        have := hf y hys
        simp only [List.contains_iff_mem] at this
        exact absurd (by rw [hyX]; simp) this
  · rintro X hX ⟨r, hr, hXr⟩ _
    refine ⟨(t.sorted.filter (fun s => decide (s ∈ X)) ++ [], _), List.mem_map.2 ⟨_, (hall _).2 ⟨?_, List.filter_sublist⟩, rfl⟩, ?_⟩
    · obtain ⟨y, X', hyX⟩ := List.exists_cons_of_ne_nil hX
      have : y ∈ t.sorted.filter (fun s => decide (s ∈ X)) := by
        rw [List.mem_filter]
        exact ⟨(hmem y).2 ⟨r, hr, hXr y (by rw [hyX]; simp)⟩, by simp [hyX]⟩
      exact List.ne_nil_of_mem this
    · intro x
      simp only [List.append_nil, List.mem_filter, decide_eq_true_eq]
      exact ⟨fun h => h.2, fun h => ⟨(hmem x).2 ⟨r, hr, hXr x h⟩, h⟩⟩
  · unfold singlePathResults
    rw [List.pairwise_map]
    have hn : (allCombinations t.sorted).Nodup := by rw [allCombinations_eq]; exact List.nodup_sublists'.2 hsn
    have hn2 := hn.sublist (List.erase_sublist (a := []))
    apply List.Pairwise.imp_of_mem _ hn2
    intro X Y hX hY hne h
    apply hne
    have hXs := ((hall X).1 hX).2
    have hYs := ((hall Y).1 hY).2
    simp only [List.append_nil] at h
    rw [eq_filter_of_sublist hsn hXs, eq_filter_of_sublist hsn hYs]
    apply List.filter_congr
    intro x _
    simp [h x]

theorem singlePath_exact {S : σ → Prop} {th : Thresholds} {R : σ → σ → Prop} {t : FPTree σ} {D : DB σ}
    (g : Good S th R t D) (hs : t.singlePath = true) : Exact th D (t.singlePathResults []) := singlePath_exact2 g hs

/-! ### FP-growth -/

theorem fpgrowth_append (order : FPTree σ → List σ) (key : σ → κ) (th : Thresholds) (fuel : Nat) (t : FPTree σ) (alpha : List σ) :
    fpgrowth order key th fuel t alpha = (fpgrowth order key th fuel t []).map (fun e => (e.1 ++ alpha, e.2)) := by
  induction fuel generalizing t alpha with
  | zero => rfl
  | succ fuel ih =>
    unfold fpgrowth
    by_cases hs : t.singlePath = true
    · rw [if_pos hs, if_pos hs]
      simp [singlePathResults, Function.comp_def]
    · rw [if_neg hs, if_neg hs, List.map_flatMap]
      apply List.flatMap_congr
      intro a _
      simp only [List.map_cons, List.cons_append, List.nil_append]
      congr 1
      split
      · rw [ih _ (a :: alpha), ih _ [a], List.map_map]
        simp [Function.comp_def]
      · rfl

/-- the tree may contain selectors that do not meet `th`, as long as they meet the weaker `th0` -/
theorem fpgrowth_exact2 {order : FPTree σ → List σ} {key : σ → κ} {S : σ → Prop} (hk : InjOn key S) {th th0 : Thresholds}
    (hth : ∀ c, th.ok c = true → th0.ok c = true)
    (horder : ∀ t : FPTree σ, t.sorted = t.sortHeader.sorted → (order t).Perm (t.header.map (·.1)))
    (fuel : Nat) {R : σ → σ → Prop} {t : FPTree σ} {D : DB σ} (g : Good S th0 R t D) (hfuel : ∀ r ∈ D, r.1.length < fuel)
    (hne : D ≠ []) : Exact2 th0 th D (fpgrowth order key th fuel t []) := by
  induction fuel generalizing t D R th0 with
  | zero =>
    obtain ⟨r, D', rfl⟩ := List.exists_cons_of_ne_nil hne
    exact absurd (hfuel r (by simp)) (by omega)
  | succ fuel ih =>
    unfold fpgrowth
    by_cases hs : t.singlePath = true
    · rw [if_pos hs]; exact singlePath_exact2 g hs
    rw [if_neg hs]
    have hperm := horder t g.sorted
    have hon : (order t).Nodup := hperm.nodup_iff.2 (nodup_header g.holds)
    have hmem : ∀ s, s ∈ order t ↔ ∃ r ∈ D, s ∈ r.1 := fun s => by rw [hperm.mem_iff, mem_header g.holds]
    have hhd : ∀ s, s ∈ order t → (t.header.lookup s).getD (0, 0) = supp D [s] := by
      intro s hs'
      rw [header_lookup g.holds g.nodup, if_pos ((hmem s).1 hs')]
      apply wsum_congr; intro e _; simp
    -- what the loop body emits for `a`
    have hbody : ∀ a ∈ order t, ∀ e ∈ ((([a], (t.header.lookup a).getD (0, 0)) : Emission σ) ::
        (if !(t.condTree key th a).isEmpty then fpgrowth order key th fuel (t.condTree key th a) [a] else [])),
        ∃ X, e.1 = X ++ [a] ∧ X.Nodup ∧ (∀ x ∈ X, R x a) ∧ (∃ r ∈ D, ∀ x ∈ e.1, x ∈ r.1) ∧ e.2 = supp D e.1 ∧ th0.ok e.2 = true := by
      intro a ha e he
      rcases List.mem_cons.1 he with rfl | he
      · refine ⟨[], rfl, by simp, by simp, ?_, ?_, ?_⟩
        · obtain ⟨r, hr, har⟩ := (hmem a).1 ha
          exact ⟨r, hr, by simpa using har⟩
        · exact hhd a ha
        · simp only
          rw [header_lookup g.holds g.nodup, if_pos ((hmem a).1 ha)]
          exact g.freq a ((hmem a).1 ha)
      · obtain ⟨R', D', g', hlen, hsound, _⟩ := cond_good (th := th) hk g (hperm.mem_iff.1 ha)
        by_cases hemp : (t.condTree key th a).isEmpty = true
        · rw [hemp] at he; simp at he
        · have hb : (!(t.condTree key th a).isEmpty) = true := by simp [hemp]
          rw [if_pos hb, fpgrowth_append] at he
          have hD' : D' ≠ [] := by
            rintro rfl
            exact hemp ((isEmpty_iff g'.holds).2 (by simp))
          have hE := ih (th0 := th) (fun _ h => h) g' (fun r' hr' => by
            obtain ⟨r, hr, hlt⟩ := hlen r' hr'
            have := hfuel r hr
            omega) hD'
          obtain ⟨f, hf, rfl⟩ := List.mem_map.1 he
          obtain ⟨h1, h2, h3, h4, h5⟩ := hE.sound f hf
          obtain ⟨h6, h7, h8⟩ := hsound f.1 h1 h3
          refine ⟨f.1, rfl, h2, h8, ?_, ?_, hth _ h5⟩
          · obtain ⟨r, hr, hh⟩ := h7
            exact ⟨r, hr, fun x hx => hh x (by simpa [or_comm] using hx)⟩
          · simp only
            rw [h4, h6]
            apply wsum_congr
            intro e _
            simp only [List.mem_cons, List.mem_append, List.not_mem_nil, or_false]
            constructor <;> intro h x hx <;> exact h x hx.symm
    constructor
    · intro e he
      obtain ⟨a, ha, hea⟩ := List.mem_flatMap.1 he
      obtain ⟨X, h1, h2, h3, h4, h5, h6⟩ := hbody a ha e hea
      refine ⟨by rw [h1]; simp, ?_, h4, h5, h6⟩
      rw [h1, List.nodup_append]
      refine ⟨h2, by simp, ?_⟩
      intro x hx y hy hxy
      simp at hy
      have := h3 x hx
      rw [hxy, hy] at this
      exact g.asymm _ _ this this
    · rintro X hX ⟨r, hr, hXr⟩ hok
      obtain ⟨y, X', hyX⟩ := List.exists_cons_of_ne_nil hX
      have hyX' : y ∈ X := by rw [hyX]; simp
      obtain ⟨u, a, v, hreq, haX, hvX⟩ := exists_last (P := (· ∈ X)) (hXr y hyX') hyX'
      have har : a ∈ r.1 := hXr a haX
      have ha : a ∈ order t := (hmem a).2 ⟨r, hr, har⟩
      have hRa : ∀ x ∈ X, x ≠ a → R x a := by
        intro x hx hxa
        have hxr := hXr x hx
        have hord := g.ordered r hr
        rw [hreq] at hxr hord
        rw [List.pairwise_append] at hord
        rcases List.mem_append.1 hxr with h | h
        · exact hord.2.2 x h a (by simp)
        · rcases List.mem_cons.1 h with h | h
          · exact absurd h hxa
          · exact absurd hx (hvX x h)
      set Y := X.filter (fun x => decide (x ≠ a)) with hY
      have hYX : ∀ x, x ∈ a :: Y ↔ x ∈ X := by
        intro x
        simp only [hY, List.mem_cons, List.mem_filter, decide_eq_true_eq]
        constructor
        · rintro (rfl | h)
          · exact haX
          · exact h.1
        · intro h
          by_cases hxa : x = a
          · exact Or.inl hxa
          · exact Or.inr ⟨h, hxa⟩
      by_cases hYn : Y = []
      · refine ⟨([a], (t.header.lookup a).getD (0, 0)), List.mem_flatMap.2 ⟨a, ha, by simp⟩, ?_⟩
        intro x
        rw [← hYX x, hYn]
      · obtain ⟨R', D', g', hlen, hsound, hcomp⟩ := cond_good (th := th) hk g (hperm.mem_iff.1 ha)
        have hsuppY : supp D (a :: Y) = supp D X := by
          apply wsum_congr
          intro e _
          constructor <;> intro h x hx
          · exact h x ((hYX x).2 hx)
          · exact h x ((hYX x).1 hx)
        have hYR : ∀ x ∈ Y, R x a := by
          intro x hx
          have := List.mem_filter.1 hx
          exact hRa x this.1 (by simpa using this.2)
        obtain ⟨r', hr', hYr'⟩ := hcomp Y hYn hYR ⟨r, hr, fun x hx => hXr x ((hYX x).1 hx)⟩ (by rw [hsuppY]; exact hok)
        have hD' : D' ≠ [] := List.ne_nil_of_mem hr'
        have hemp : ¬ (t.condTree key th a).isEmpty = true := by
          rw [isEmpty_iff g'.holds]
          intro h
          obtain ⟨x, Y', hxY⟩ := List.exists_cons_of_ne_nil hYn
          have := hYr' x (by rw [hxY]; simp)
          rw [h r' hr'] at this
          simp at this
        have hE := ih (th0 := th) (fun _ h => h) g' (fun r' hr' => by
            obtain ⟨r, hr, hlt⟩ := hlen r' hr'
            have := hfuel r hr
            omega) hD'
        have hok' : th.ok (supp D' Y) = true := by
          rw [(hsound Y hYn ⟨r', hr', hYr'⟩).1, hsuppY]; exact hok
        obtain ⟨f, hf, hfx⟩ := hE.complete Y hYn ⟨r', hr', hYr'⟩ hok'
        refine ⟨(f.1 ++ [a], f.2), List.mem_flatMap.2 ⟨a, ha, List.mem_cons_of_mem _ ?_⟩, ?_⟩
        · rw [if_pos (by simp [hemp]), fpgrowth_append]
          exact List.mem_map_of_mem (f := fun e : Emission σ => (e.1 ++ [a], e.2)) hf
        · intro x
          rw [← hYX x]
          simp [hfx x, or_comm]
    · rw [List.pairwise_flatMap]
      constructor
      · intro a ha
        rw [List.pairwise_cons]
        obtain ⟨R', D', g', hlen, hsound, _⟩ := cond_good (th := th) hk g (hperm.mem_iff.1 ha)
        by_cases hemp : (t.condTree key th a).isEmpty = true
        · rw [hemp]; simp
        · rw [if_pos (by simp [hemp]), fpgrowth_append]
          have hD' : D' ≠ [] := by
            rintro rfl
            exact hemp ((isEmpty_iff g'.holds).2 (by simp))
          have hE := ih (th0 := th) (fun _ h => h) g' (fun r' hr' => by
            obtain ⟨r, hr, hlt⟩ := hlen r' hr'
            have := hfuel r hr
            omega) hD'
          have hRf : ∀ f ∈ fpgrowth order key th fuel (t.condTree key th a) [], ∀ x ∈ f.1, x ≠ a := by
            intro f hf x hx hxa
            obtain ⟨h1, h2, h3, h4, h5⟩ := hE.sound f hf
            have := (hsound f.1 h1 h3).2.2 x hx
            rw [hxa] at this
            exact g.asymm _ _ this this
          refine ⟨?_, ?_⟩
          · intro e he h
            obtain ⟨f, hf, rfl⟩ := List.mem_map.1 he
            obtain ⟨h1, _⟩ := hE.sound f hf
            obtain ⟨x, X', hxX⟩ := List.exists_cons_of_ne_nil h1
            have hxf : x ∈ f.1 := by rw [hxX]; simp
            have := (h x).2 (by simp [hxf])
            simp at this
            exact hRf f hf x hxf this
          · rw [List.pairwise_map]
            apply List.Pairwise.imp_of_mem _ hE.distinct
            intro e f he hf hef h
            apply hef
            intro x
            have := h x
            simp only [List.mem_append, List.mem_cons, List.not_mem_nil, or_false] at this
            constructor
            · intro hx
              rcases this.1 (Or.inl hx) with h1 | h1
              · exact h1
              · exact absurd h1 (hRf e he x hx)
            · intro hx
              rcases this.2 (Or.inl hx) with h1 | h1
              · exact h1
              · exact absurd h1 (hRf f hf x hx)
      · apply List.Pairwise.imp_of_mem _ hon
        intro a b ha hb hab e he f hf h
        obtain ⟨X, h1, _, h3, _⟩ := hbody a ha e he
        obtain ⟨Y, k1, _, k3, _⟩ := hbody b hb f hf
        have haf : a ∈ Y := by
          have := (h a).1 (by rw [h1]; simp)
          rw [k1] at this
          simp only [List.mem_append, List.mem_cons, List.not_mem_nil, or_false] at this
          rcases this with h' | h'
          · exact h'
          · exact absurd h' hab
        have hbe : b ∈ X := by
          have := (h b).2 (by rw [k1]; simp)
          rw [h1] at this
          simp only [List.mem_append, List.mem_cons, List.not_mem_nil, or_false] at this
          rcases this with h' | h'
          · exact h'
          · exact absurd h'.symm hab
        exact g.asymm _ _ (h3 b hbe) (k3 a haf)

theorem fpgrowth_exact {order : FPTree σ → List σ} {key : σ → κ} {S : σ → Prop} (hk : InjOn key S) {th : Thresholds}
    (horder : ∀ t : FPTree σ, t.sorted = t.sortHeader.sorted → (order t).Perm (t.header.map (·.1)))
    (fuel : Nat) {R : σ → σ → Prop} {t : FPTree σ} {D : DB σ} (g : Good S th R t D) (hfuel : ∀ r ∈ D, r.1.length < fuel)
    (hne : D ≠ []) : Exact th D (fpgrowth order key th fuel t []) := fpgrowth_exact2 hk (fun _ h => h) horder fuel g hfuel hne

end FPTree
end Verif

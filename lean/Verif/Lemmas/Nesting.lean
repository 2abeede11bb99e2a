import Verif.Lemmas.SDMapStar
import Verif.Model.Nesting
/-! How many calls are open at once. -/
set_option linter.unusedSectionVars false
namespace Verif.Nesting
open Classical Spec

/-- the run with `b` calls left does what the unlimited run does, or it overflows and `b` is below `need` -/
def Within {α : Type} (need b : Nat) (r : Except Fail α) (u : Except PyErr α) : Prop := r = lift u ∨ (r = .error .stack ∧ b < need)

theorem Within.mono {α : Type} {n m b c : Nat} {r : Except Fail α} {u : Except PyErr α} (h : Within n b r u) (hn : b < n → c < m) : Within m c r u :=
  h.imp_right (fun ⟨h1, h2⟩ => ⟨h1, hn h2⟩)

theorem Within.eq {α : Type} {n b : Nat} {r : Except Fail α} {u : Except PyErr α} (h : Within n b r u) (hb : n ≤ b) : r = lift u := by
  rcases h with h | ⟨_, h⟩
  · exact h
  · omega

theorem Within.bind {α β : Type} {n b : Nat} {r : Except Fail α} {u : Except PyErr α} {f : α → Except Fail β} {g : α → Except PyErr β}
    (h : Within n b r u) (hf : ∀ a, u = .ok a → Within n b (f a) (g a)) :
    Within n b (r.bind f) (u.bind g) := by
  rcases h with rfl | ⟨rfl, h⟩
  · cases u with
    | error e => exact .inl rfl
    | ok a => exact hf a rfl
  · exact .inr ⟨rfl, h⟩

theorem match_bind {α β ε : Type} (r : Except ε α) (f : α → Except ε β) :
    (match r with | .error e => .error e | .ok a => f a) = r.bind f := by cases r <;> rfl

theorem foldlM_ok_cons {α β ε : Type} (f : β → α → Except ε β) (a : α) (l : List α) (s : β) :
    (a :: l).foldlM f s = match f s a with | .error e => .error e | .ok s' => l.foldlM f s' := by
  rw [List.foldlM_cons]
  cases f s a <;> rfl

theorem foldlM_within {α β : Type} {n b : Nat} {F : β → α → Except Fail β} {G : β → α → Except PyErr β} (l : List α)
    (h : ∀ a ∈ l, ∀ s, Within n b (F s a) (G s a)) : ∀ s, Within n b (l.foldlM F s) (l.foldlM G s) := by
  induction l with
  | nil => intro s; exact .inl rfl
  | cons a l ih =>
    intro s
    rw [List.foldlM_cons, List.foldlM_cons]
    exact (h a (by simp) s).bind (fun s' _ => ih (fun x hx => h x (by simp [hx])) s')

theorem foldlM_flatMap {α γ β : Type} (f : β → γ → Except PyErr β) (seg : α → List γ) (l : List α) (s : β) :
    (l.flatMap seg).foldlM f s = l.foldlM (fun s a => (seg a).foldlM f s) s := by
  induction l generalizing s with
  | nil => rfl
  | cons a l ih =>
    rw [List.flatMap_cons, List.foldlM_append, List.foldlM_cons]
    cases (seg a).foldlM f s with
    | error e => rfl
    | ok s' => exact ih s'

/-- the elements of a successful loop -/
theorem foldlM_ok_mem {α β ε : Type} {F : β → α → Except ε β} {l : List α} {s s' : β} (h : l.foldlM F s = .ok s') :
    ∀ a ∈ l, ∃ x y, F x a = .ok y := by
  induction l generalizing s with
  | nil => simp
  | cons a l ih =>
    rw [foldlM_ok_cons] at h
    cases ha : F s a with
    | error e => rw [ha] at h; cases h
    | ok s1 =>
      rw [ha] at h
      intro x hx
      rcases List.mem_cons.1 hx with rfl | hx
      · exact ⟨_, _, ha⟩
      · exact ih h x hx

theorem combinations_eq {α : Type} (b : Nat) (l : List α) :
    allCombinations b l = if l.length < b then .ok (Verif.allCombinations l) else .error .stack := by
  induction l generalizing b with
  | nil => cases b <;> simp [allCombinations, Verif.allCombinations]
  | cons a l ih =>
    cases b with
    | zero => simp [allCombinations]
    | succ b =>
      unfold allCombinations
      rw [ih b]
      by_cases h : l.length < b
      · rw [if_pos h, if_pos (by simpa using h)]; rfl
      · rw [if_neg h, if_neg (by simpa using h)]

section
variable {σ κ β : Type} [DecidableEq σ] [DecidableEq κ]
open FPTree

theorem sorted_le_of_singlePath {S : σ → Prop} {th : Thresholds} {R : σ → σ → Prop} {t : FPTree σ} {D : DB σ} (g : Good S th R t D)
    (hs : t.singlePath = true) {L : Nat} (hL : ∀ r ∈ D, r.1.length ≤ L) : t.sorted.length ≤ L := by
  obtain ⟨P, hP⟩ := singlePathLoop_sound g.holds _ [] hs (fun r _ => Or.inr (by simp))
  have hperm := sorted_perm g.sorted
  have hsn : t.sorted.Nodup := hperm.nodup_iff.2 (nodup_header g.holds)
  have hmem : ∀ s, s ∈ t.sorted → ∃ r ∈ D, s ∈ r.1 := fun s h => by rwa [hperm.mem_iff, mem_header g.holds] at h
  have h1 : t.sorted ⊆ P.take L := by
    intro s hs
    obtain ⟨r, hr, h⟩ := hmem s hs
    have h2 : r.1 <+: P.take L := by
      rw [List.prefix_take_iff]
      exact ⟨hP r hr, hL r hr⟩
    exact h2.subset h
  have := (List.subperm_of_subset hsn h1).length_le
  simp only [List.length_take] at this
  omega

/-- `_fpgrowth` opens at most two calls more than the length of the longest path -/
theorem fpgrowth_within {order : FPTree σ → List σ} {key : σ → κ} {S : σ → Prop} (hk : InjOn key S) {th : Thresholds}
    (horder : ∀ t : FPTree σ, t.sorted = t.sortHeader.sorted → (order t).Perm (t.header.map (·.1))) (f : β → Emission σ → Except PyErr β)
    (b : Nat) : ∀ (L fuel : Nat) {R : σ → σ → Prop} {t : FPTree σ} {D : DB σ} (alpha : List σ) (s : β), Good S th R t D →
      (∀ r ∈ D, r.1.length ≤ L) → L < fuel →
      Within (L + 2) b (fpgrowth order key th f b t alpha s) ((FPTree.fpgrowth order key th fuel t alpha).foldlM f s) := by
  induction b with
  | zero => intro L fuel R t D alpha s g hL hfuel; exact .inr ⟨rfl, by omega⟩
  | succ b ih =>
    intro L fuel R t D alpha s g hL hfuel
    obtain ⟨fuel, rfl⟩ : ∃ k, fuel = k + 1 := ⟨fuel - 1, by omega⟩
    unfold fpgrowth FPTree.fpgrowth
    by_cases hs : t.singlePath = true
    · rw [if_pos hs, if_pos hs, combinations_eq]
      have hle := sorted_le_of_singlePath g hs hL
      by_cases hb : t.sorted.length < b
      · rw [if_pos hb]
        left
        unfold FPTree.singlePathResults
        rw [List.foldlM_map]
      · rw [if_neg hb]
        exact .inr ⟨rfl, by omega⟩
    · rw [if_neg hs, if_neg hs, foldlM_flatMap]
      apply foldlM_within
      intro a ha s
      have hah : a ∈ t.header.map (·.1) := (horder t g.sorted).mem_iff.1 ha
      obtain ⟨R', D', g', hlen, _⟩ := cond_good hk (th := th) g hah
      rw [foldlM_ok_cons]
      cases f s (a :: alpha, (t.header.lookup a).getD (0, 0)) with
      | error e => exact .inl rfl
      | ok s' =>
        simp only
        by_cases he : (t.condTree key th a).isEmpty = true
        · rw [if_neg (by simp [he]), if_neg (by simp [he])]
          exact .inl rfl
        · rw [if_pos (by simpa using he), if_pos (by simpa using he)]
          have hpos : 0 < L := by
            rw [isEmpty_iff g'.holds] at he
            push Not at he
            obtain ⟨r', hr', _⟩ := he
            obtain ⟨r, hr, h1⟩ := hlen r' hr'
            have := hL r hr
            omega
          have := ih (L - 1) fuel (alpha := a :: alpha) (s := s') g' (by
            intro r' hr'
            obtain ⟨r, hr, h1⟩ := hlen r' hr'
            have := hL r hr
            omega) (by omega)
          exact this.mono (by omega)

/-- a run that does not overflow evaluates descriptions with at most `b` more selectors -/
theorem fpgrowth_length {order : FPTree σ → List σ} {key : σ → κ} {th : Thresholds} {f : β → Emission σ → Except PyErr β} (b : Nat) :
    ∀ (fuel : Nat) (t : FPTree σ) (alpha : List σ) (s s' : β), fpgrowth order key th f b t alpha s = .ok s' →
      ∀ e ∈ FPTree.fpgrowth order key th fuel t alpha, e.1.length ≤ alpha.length + b := by
  induction b with
  | zero => intro fuel t alpha s s' h; cases h
  | succ b ih =>
    intro fuel t alpha s s' h e he
    cases fuel with
    | zero => simp [FPTree.fpgrowth] at he
    | succ fuel =>
      unfold fpgrowth at h
      unfold FPTree.fpgrowth at he
      by_cases hs : t.singlePath = true
      · rw [if_pos hs, combinations_eq] at h
        rw [if_pos hs] at he
        by_cases hb : t.sorted.length < b
        · obtain ⟨beta, hbeta, rfl⟩ := List.mem_map.1 he
          have h1 := List.mem_of_mem_erase hbeta
          rw [allCombinations_eq, List.mem_sublists'] at h1
          have := h1.length_le
          simp only [List.length_append]
          omega
        · rw [if_neg hb] at h; cases h
      · rw [if_neg hs] at h he
        obtain ⟨a, ha, he⟩ := List.mem_flatMap.1 he
        obtain ⟨x, y, hxy⟩ := foldlM_ok_mem h a ha
        rcases List.mem_cons.1 he with rfl | he
        · simp only [List.length_cons]; omega
        · cases hf : f x (a :: alpha, (t.header.lookup a).getD (0, 0)) with
          | error e => rw [hf] at hxy; cases hxy
          | ok s1 =>
            rw [hf] at hxy
            simp only at hxy
            by_cases hemp : (t.condTree key th a).isEmpty = true
            · rw [if_neg (by simp [hemp])] at he; simp at he
            · rw [if_pos (by simpa using hemp)] at he hxy
              have := ih fuel _ _ _ _ hxy e he
              simp only [List.length_cons] at this
              omega

end

/-! ### `SDMapStar` with top-k -/

section
open FPTree
variable {cfg : SDMapStarConfig} {target : Str × Str} {TP FP : Nat}

theorem condTreeStar_good {S : Selector → Prop} (hk : InjOn Selector.dictKey S) {th0 : Thresholds} {R : Selector → Selector → Prop} {t : FPTree Selector} {D : DB Selector}
    (g : Good S th0 R t D) {a : Selector} {bound : Rat} {c : FPTree Selector} {n : Nat} (ha : a ∈ t.header.map (·.1))
    (h : cfg.condTreeStar TP FP bound t a = .ok (c, n)) :
    ∃ R' D', Good S cfg.th R' c D' ∧ ∀ r' ∈ D', ∃ r ∈ D, r'.1.length < r.1.length := by
  have hcont : ((t.header.map (·.1)).contains a) = true := by simpa only [List.contains_iff_mem] using ha
  unfold SDMapStarConfig.condTreeStar at h
  rw [if_pos hcont] at h
  cases hpb : cfg.pruneBase TP FP bound (t.horizontal a) with
  | error e => rw [hpb] at h; cases h
  | ok b =>
    rw [hpb] at h
    simp only [bind, Except.bind, pure, Except.pure] at h
    cases h
    obtain ⟨hsub, _⟩ := SDMapStarConfig.pruneBase_spec (b' := b.1) (n := b.2) hpb
    obtain ⟨R', D', g', hlen, _⟩ := FPTree.condOf_good (th := cfg.th) hk g (a := a) (base := b.1)
      (fun x hx => FPTree.horizontal_prefix g.holds a x (hsub.subset hx))
    exact ⟨R', D', g', hlen⟩

theorem fpgrowthStar_within {S : Selector → Prop} (hk : InjOn Selector.dictKey S) (b : Nat) :
    ∀ (L fuel : Nat) {R : Selector → Selector → Prop} {t : FPTree Selector} {D : DB Selector} (alpha : List Selector) (st : StarState),
      Good S cfg.th R t D → (∀ r ∈ D, r.1.length ≤ L) → L < fuel →
      Within (L + 2) b (fpgrowthStar cfg target TP FP b st t alpha) (cfg.fpgrowthStar target TP FP fuel st t alpha) := by
  induction b with
  | zero => intro L fuel R t D alpha s g hL hfuel; exact .inr ⟨rfl, by omega⟩
  | succ b ih =>
    intro L fuel R t D alpha s g hL hfuel
    obtain ⟨fuel, rfl⟩ : ∃ k, fuel = k + 1 := ⟨fuel - 1, by omega⟩
    unfold fpgrowthStar SDMapStarConfig.fpgrowthStar
    by_cases hs : t.singlePath = true
    · rw [if_pos hs, if_pos hs, combinations_eq]
      have hle := sorted_le_of_singlePath g hs hL
      by_cases hb : t.sorted.length < b
      · rw [if_pos hb]
        exact .inl rfl
      · rw [if_neg hb]
        exact .inr ⟨rfl, by omega⟩
    · rw [if_neg hs, if_neg hs]
      cases hord : cfg.oeOrder TP FP t with
      | error e => exact .inl rfl
      | ok order =>
        simp only [bind, Except.bind]
        apply foldlM_within
        intro a ha s
        have hah : a ∈ t.header.map (·.1) := (SDMapStarConfig.oeOrder_perm hord).mem_iff.1 ha
        cases hv : cfg.visit target TP FP s (a :: alpha) ((t.header.lookup a).getD (0, 0)) with
        | error e => exact .inl rfl
        | ok r =>
          obtain ⟨s1, go⟩ := r
          cases go with
          | false => exact .inl rfl
          | true =>
            simp only [if_true]
            cases hc : cfg.condTreeStar TP FP (s1.ks.headD 0) t a with
            | error e => exact .inl rfl
            | ok c =>
              obtain ⟨c, n⟩ := c
              obtain ⟨R', D', g', hlen⟩ := condTreeStar_good hk g hah hc
              simp only
              by_cases he : c.isEmpty = true
              · rw [if_neg (by simp [he]), if_neg (by simp [he])]
                exact .inl rfl
              · rw [if_pos (by simpa using he), if_pos (by simpa using he)]
                have hpos : 0 < L := by
                  rw [isEmpty_iff g'.holds] at he
                  push Not at he
                  obtain ⟨r', hr', _⟩ := he
                  obtain ⟨r, hr, h1⟩ := hlen r' hr'
                  have := hL r hr
                  omega
                have := ih (L - 1) fuel (alpha := a :: alpha) (st := { s1 with condPruned := s1.condPruned + n }) g' (by
                  intro r' hr'
                  obtain ⟨r, hr, h1⟩ := hlen r' hr'
                  have := hL r hr
                  omega) (by omega)
                exact this.mono (by omega)

end

/-! ### descriptions and columns -/

section
variable {df : Frame} {target : Str × Str}

/-- a description that occurs has at most one selector per column -/
theorem length_lt_cols (hf : NominalFrame df target) {X : List Selector} (hn : X.Nodup) (ho : OccursIn df X)
    (hX : ∀ s ∈ X, s.attr ≠ target.1 ∧ s.op = .equal ∧ ∃ v, s.val = .str v) : X.length + 1 ≤ df.cols.length := by
  obtain ⟨i, hi, hc⟩ := ho
  have hat : ∀ s ∈ X, ∃ x c, s = ⟨s.attr, .equal, .str x⟩ ∧ c ∈ df.cols ∧ c.1 = s.attr ∧ c.2[i]? = some (.str x) := by
    intro s hs
    obtain ⟨_, h2, v, h3⟩ := hX s hs
    have he : s = ⟨s.attr, .equal, .str v⟩ := by rw [← h2, ← h3]
    have := hc s hs
    rw [he, matchesAt_iff hf] at this
    obtain ⟨c, h4, h5, h6⟩ := this
    exact ⟨v, c, he, h4, h5, h6⟩
  have hnd : (target.1 :: X.map (·.attr)).Nodup := by
    rw [List.nodup_cons]
    refine ⟨?_, ?_⟩
    · intro h
      obtain ⟨s, hs, h1⟩ := List.mem_map.1 h
      exact (hX s hs).1 h1
    · apply List.Nodup.map_on _ hn
      intro s hs t ht hst
      obtain ⟨x, c, h1, h2, h3, h4⟩ := hat s hs
      obtain ⟨y, d, k1, k2, k3, k4⟩ := hat t ht
      have hcd : c = d := by
        have e1 := lookup_of_mem_cols hf h2
        have e2 := lookup_of_mem_cols hf k2
        rw [h3, hst] at e1
        rw [k3] at e2
        rw [e1] at e2
        ext1
        · rw [h3, k3, hst]
        · exact Option.some.inj e2
      rw [hcd, k4] at h4
      rw [h1, k1, hst]
      simp only [Option.some.injEq, Val.str.injEq] at h4
      rw [h4]
  have hsub : (target.1 :: X.map (·.attr)) ⊆ df.cols.map (·.1) := by
    intro a ha
    rcases List.mem_cons.1 ha with rfl | ha
    · exact hf.target
    · obtain ⟨s, hs, rfl⟩ := List.mem_map.1 ha
      obtain ⟨x, c, h1, h2, h3, h4⟩ := hat s hs
      exact List.mem_map.2 ⟨c, h2, h3⟩
  have := (List.subperm_of_subset hnd hsub).length_le
  simpa using this

theorem rootDB_length (hf : NominalFrame df target) (hk : KeysFaithful df target) (th : Thresholds) {mask : List Bool}
    (hl : mask.length = df.nrows) (hm : ∀ i, mask[i]? = some true ↔ MatchesAt df (targetSel target) i) :
    ∀ r ∈ rootDB th df target.1 mask, r.1.length ≤ df.cols.length - 1 := by
  intro r hr
  have g := root_good hf hk th hl hm
  have hn := g.nodup r hr
  obtain ⟨i, hi, rfl⟩ := List.mem_map.1 hr
  have hmem := mem_rootRow hf hk th mask i
  have := length_lt_cols (X := (FPTree.sortRow Selector.dictKey (frequentSelectors th df target.1 mask)
      (FPTree.validSelectors (frequentSelectors th df target.1 mask) (rowKeys df target.1 i)))) hf hn ⟨i, List.mem_range.1 hi, fun s hs => by
      obtain ⟨h1, h2⟩ := (hmem s).1 hs
      obtain ⟨b1, b2, b3⟩ := rootDict_describes hf hk h2
      exact (mem_rowSels_iff hf b1 b2 b3 i).1 h1⟩ (fun s hs => rootDict_describes hf hk ((hmem s).1 hs).2)
  simp only at this ⊢
  omega

end
end Verif.Nesting

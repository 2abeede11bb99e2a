import Verif.Props.Pattern
/-! Properties C11 and C12: text round trips of patterns and subgroups, and `Subgroup.filter`. -/
namespace Verif
open Spec

/-! ## C11 -/

/-- the selector's printed form is read back as the same selector (by C05: attribute without blanks, float with a point) -/
def Spec.TextSafe (s : Selector) : Prop :=
  Selector.legal s.op s.val = true ∧ ' ' ∉ s.attr ∧
    ∀ f, s.val = .flt f → (10 ≤ f.m.natAbs ∨ (-4 ≤ f.e ∧ f.e ≤ 15))

theorem strLoop_eq (s : Selector) (rest : List Selector) :
    ∃ body, Pattern.strLoop (s :: rest) = body ++ c!"]" ∧
      ((∀ t ∈ s :: rest, ¬ Occurs c!", " t.str) → splitOn c!", " body = (s :: rest).map Selector.str) := by
  induction rest generalizing s with
  | nil =>
    refine ⟨s.str, rfl, fun h => ?_⟩
    rw [splitOn_none (h s (by simp))]; rfl
  | cons t rest ih =>
    obtain ⟨body, h1, h2⟩ := ih t
    refine ⟨s.str ++ c!", " ++ body, ?_, fun h => ?_⟩
    · simp only [Pattern.strLoop, h1, List.append_assoc]
    · have := splitOn_first (c := ',') (sep' := c!" ") (by decide) s.str body (h s (by simp))
      rw [this, h2 (fun u hu => h u (by simp at hu ⊢; tauto))]; rfl

theorem mapM_roundtrip (l : List Selector) (h : ∀ s ∈ l, TextSafe s) :
    (l.map Selector.str).mapM Selector.generateFromStr = .ok l := by
  induction l with
  | nil => rfl
  | cons s l ih =>
    have hs := h s (by simp)
    rw [List.map_cons, mapM_cons_eq, C05_exact s hs.1 hs.2.1 hs.2.2, ih (fun t ht => h t (by simp [ht]))]

theorem str_ne_nil (s : Selector) : ∃ c cs, s.str = c :: cs := by
  unfold Selector.str
  cases s.attr with
  | nil => exact ⟨_, _, rfl⟩
  | cons c cs => exact ⟨_, _, rfl⟩

/-- reading the printed form of a pattern gives the constructor applied to its selectors -/
theorem pattern_generate (p : Pattern) (hsafe : ∀ s ∈ p.sels, TextSafe s) (hsep : ∀ s ∈ p.sels, ¬ Occurs c!", " s.str) :
    Pattern.generateFromStr p.str = .ok (Pattern.new p.sels) := by
  unfold Pattern.generateFromStr Pattern.str
  cases hp : p.sels with
  | nil => simp
  | cons s rest =>
    rw [hp] at hsafe hsep
    obtain ⟨body, h1, h2⟩ := strLoop_eq s rest
    have hbody : body ≠ [] := by
      intro hb
      subst hb
      have h3 := h2 hsep
      obtain ⟨c, cs, h4⟩ := str_ne_nil s
      have h5 : splitOn c!", " [] = [[]] := rfl
      rw [h5, List.map_cons, h4] at h3
      simp at h3
    have hne : ('[' :: Pattern.strLoop (s :: rest)) ≠ c!"[]" := by
      rw [h1]
      intro h
      simp only [List.cons.injEq, true_and] at h
      exact hbody (List.append_left_eq_self.1 h)
    rw [if_neg (by simp : ¬ (s :: rest).length = 0), if_neg hne, h1]
    simp only [List.tail_cons, List.dropLast_concat]
    rw [h2 hsep, mapM_roundtrip _ hsafe]

/-- C11: a pattern with any homogeneous history whose selectors are text-safe and do not print the separator `", "`
is read back as an equal pattern. `C11_pattern_exact`: the conditions are also necessary. -/
theorem C11_pattern_safe (S : Selector → Prop) (hS : Homogeneous S) (init : List Selector) (ops : List PatOp)
    (hm : ∀ s ∈ mentioned init ops, S s)
    (hsafe : ∀ s ∈ (patRun init ops).sels, TextSafe s)
    (hsep : ∀ s ∈ (patRun init ops).sels, ¬ Occurs c!", " s.str) :
    ∃ q, Pattern.generateFromStr (patRun init ops).str = .ok q ∧ q.eq (patRun init ops) = true := by
  refine ⟨_, pattern_generate _ hsafe hsep, ?_⟩
  obtain ⟨h1, h2⟩ := run_inv hS init ops hm
  have hlt : ∀ a b, S a → S b → (a.lt b = true ↔ a.key < b.key) := fun a b ha hb => Selector.lt_iff_key (hS a b ha hb)
  obtain ⟨n1, n2, n3⟩ := Pattern.new_spec hlt h1
  rw [Pattern.eq_iff_keys]
  refine Pattern.sorted_keys_ext n1 h2 (fun k => ⟨?_, ?_⟩)
  · rintro ⟨t, ht, rfl⟩; exact ⟨t, n2 t ht, rfl⟩
  · rintro ⟨t, ht, rfl⟩; exact n3 t ht

/-- C11 for subgroups: moreover the text `", Target: "` must not occur in the printed description or target. -/
theorem C11_subgroup_safe (S : Selector → Prop) (hS : Homogeneous S) (init : List Selector) (ops : List PatOp)
    (hm : ∀ s ∈ mentioned init ops, S s) (target : Selector) (ht : TextSafe target)
    (hsafe : ∀ s ∈ (patRun init ops).sels, TextSafe s)
    (hsep : ∀ s ∈ (patRun init ops).sels, ¬ Occurs c!", " s.str)
    (hd : ¬ Occurs c!", Target: " (c!"Description: " ++ (patRun init ops).str)) (htt : ¬ Occurs c!", Target: " target.str) :
    ∃ t, Subgroup.generateFromStr (⟨patRun init ops, target⟩ : Subgroup).str = .ok t ∧
      t.eq ⟨patRun init ops, target⟩ = true := by
  obtain ⟨q, h1, h2⟩ := C11_pattern_safe S hS init ops hm hsafe hsep
  have hsplit : splitOn c!", Target: " (c!"Description: " ++ (patRun init ops).str ++ c!", Target: " ++ target.str)
      = [c!"Description: " ++ (patRun init ops).str, target.str] := by
    have := splitOn_first (c := ',') (sep' := c!" Target: ") (by decide) _ target.str hd
    rw [this, splitOn_none htt]
  refine ⟨⟨q, target⟩, ?_, ?_⟩
  · unfold Subgroup.generateFromStr Subgroup.str
    simp only
    rw [hsplit]
    simp only [C05_exact target ht.1 ht.2.1 ht.2.2]
    have : (c!"Description: " ++ (patRun init ops).str).drop 13 = (patRun init ops).str := rfl
    rw [this, h1]
  · simp [Subgroup.eq, h2, eqx]

/-- non-vacuity: values with quotes, brackets and a comma not followed by a blank -/
example : ∃ t, Subgroup.generateFromStr (⟨patRun [⟨c!"b", .equal, .int 2⟩, ⟨c!"a", .notEqual, .str c!"x,y]'"⟩] [],
    ⟨c!"t", .equal, .str c!"no way"⟩⟩ : Subgroup).str = .ok t ∧ t.description.sels.length = 2 :=
  ⟨⟨⟨[⟨c!"a", .notEqual, .str c!"x,y]'"⟩, ⟨c!"b", .equal, .int 2⟩]⟩, ⟨c!"t", .equal, .str c!"no way"⟩⟩, by decide +kernel, rfl⟩

/-- the conditions are needed: a value with the separator, an attribute name `Target:` in the second place -/
theorem C11_fails :
    (∃ p : Pattern, (∀ s ∈ p.sels, TextSafe s) ∧ ∀ q, Pattern.generateFromStr p.str ≠ .ok q) ∧
    (∃ s : Subgroup, (∀ t ∈ s.description.sels, TextSafe t ∧ ¬ Occurs c!", " t.str) ∧ TextSafe s.target ∧
      ∀ t, Subgroup.generateFromStr s.str = .ok t → t.eq s = false) := by
  refine ⟨⟨Pattern.new [⟨c!"a", .equal, .str c!"x, y"⟩], ?_, ?_⟩,
    ⟨⟨Pattern.new [⟨c!"A", .equal, .int 1⟩, ⟨c!"Target:", .equal, .int 1⟩], ⟨c!"t", .equal, .int 1⟩⟩, ?_, ?_, ?_⟩⟩
  · have : (Pattern.new [⟨c!"a", .equal, .str c!"x, y"⟩]).sels = [⟨c!"a", .equal, .str c!"x, y"⟩] := by decide +kernel
    rw [this]
    intro s hs
    simp at hs; subst hs
    exact ⟨rfl, by decide, by intro f h; cases h⟩
  · intro q h
    have : Pattern.generateFromStr (Pattern.new [⟨c!"a", .equal, .str c!"x, y"⟩]).str = .error .indexError := by decide +kernel
    rw [this] at h; cases h
  · have : (Pattern.new [⟨c!"A", .equal, .int 1⟩, ⟨c!"Target:", .equal, .int 1⟩]).sels
      = [⟨c!"A", .equal, .int 1⟩, ⟨c!"Target:", .equal, .int 1⟩] := by decide +kernel
    simp only [this]
    have hno : ∀ x : Str, ',' ∉ x → ¬ Occurs c!", " x := by
      rintro x hx ⟨a, b, rfl⟩; exact hx (by simp)
    intro s hs
    simp at hs
    rcases hs with rfl | rfl
    · exact ⟨⟨rfl, by decide, by intro f h; cases h⟩, hno _ (by decide +kernel)⟩
    · exact ⟨⟨rfl, by decide, by intro f h; cases h⟩, hno _ (by decide +kernel)⟩
  · exact ⟨rfl, by decide, by intro f h; cases h⟩
  · intro t h
    have : Subgroup.generateFromStr (⟨Pattern.new [⟨c!"A", .equal, .int 1⟩, ⟨c!"Target:", .equal, .int 1⟩],
      ⟨c!"t", .equal, .int 1⟩⟩ : Subgroup).str = .error .attributeError := by decide +kernel
    rw [this] at h; cases h

/-! ## C12 -/

theorem lookup_filter_ne {cols : List (Str × List Val)} {n k : Str} (h : k ≠ n) :
    (cols.filter (fun c => c.1 != n)).lookup k = cols.lookup k := by
  induction cols with
  | nil => rfl
  | cons c cols ih =>
    obtain ⟨a, v⟩ := c
    rw [List.filter_cons]
    split
    · simp only [List.lookup_cons, ih]
    · rename_i h1
      simp only [bne_iff_ne, ne_eq, not_not] at h1
      subst h1
      rw [ih, List.lookup_cons]
      have : (k == a) = false := by simp [h]
      rw [this]

theorem lookup_filter_eq {cols : List (Str × List Val)} {n : Str} :
    (cols.filter (fun c => c.1 != n)).lookup n = none := by
  rw [List.lookup_eq_none_iff]
  intro p hp
  rw [List.mem_filter] at hp
  have := hp.2
  simp only [bne_iff_ne, ne_eq] at this ⊢
  simpa [eq_comm] using this

/-- C12: the three series have one entry per row; the third is the target; the first two split the coverage of the
description (which is not allowed to look at the target column) by the target: they are disjoint, and their union is the
coverage. -/
theorem C12_filter (s : Subgroup) (df : Frame) (hw : WF df) (a b t : List Bool) (h : s.filter df = .ok (a, b, t)) :
    a.length = df.nrows ∧ b.length = df.nrows ∧ t.length = df.nrows ∧
    ∀ i (ha : i < a.length) (hb : i < b.length) (ht : i < t.length),
      (t[i] = true ↔ MatchesAt df s.target i) ∧
      (a[i] = true ↔ (Covers df s.description.sels i ∧ ∀ u ∈ s.description.sels, u.attr ≠ s.target.attr) ∧
        MatchesAt df s.target i) ∧
      (b[i] = true ↔ (Covers df s.description.sels i ∧ ∀ u ∈ s.description.sels, u.attr ≠ s.target.attr) ∧
        ¬ MatchesAt df s.target i) := by
  unfold Subgroup.filter at h
  cases hdrop : Subgroup.dropColumn df s.target.attr with
  | error e => rw [hdrop] at h; cases h
  | ok rest =>
  cases hcol : df.col s.target.attr with
  | error e => rw [hdrop, hcol] at h; cases h
  | ok tc =>
  cases hcont : s.description.isContained rest with
  | error e => rw [hdrop, hcol] at h; simp only [bind, Except.bind, hcont] at h; cases h
  | ok m =>
  cases hmt : s.target.matchSeries tc with
  | error e => rw [hdrop, hcol] at h; simp only [bind, Except.bind, hcont, hmt] at h; cases h
  | ok tm =>
  rw [hdrop, hcol] at h
  simp only [bind, Except.bind, hcont, hmt, pure, Except.pure] at h
  cases h
  have hrest : rest = ⟨df.nrows, df.cols.filter (fun c => c.1 != s.target.attr)⟩ := by
    unfold Subgroup.dropColumn at hdrop
    split at hdrop
    · cases hdrop; rfl
    · cases hdrop
  have hwr : WF rest := by
    rw [hrest]; intro c hc; exact hw c (List.mem_of_mem_filter hc)
  obtain ⟨c1, c2⟩ := C08_coverage _ rest hwr m hcont
  obtain ⟨t1, t2⟩ := matchSeries_get hcol hmt
  have hcl := Frame.col_length hw hcol
  have hn : rest.nrows = df.nrows := by rw [hrest]
  have hcov : ∀ i, Covers rest s.description.sels i ↔
      (Covers df s.description.sels i ∧ ∀ u ∈ s.description.sels, u.attr ≠ s.target.attr) := by
    intro i
    have hone : ∀ u : Selector, MatchesAt rest u i ↔ MatchesAt df u i ∧ u.attr ≠ s.target.attr := by
      intro u
      unfold MatchesAt
      rw [hrest]
      simp only
      by_cases hu : u.attr = s.target.attr
      · rw [hu, lookup_filter_eq]; simp
      · rw [lookup_filter_ne hu]; simp [hu]
    unfold Covers
    simp only [hone]
    exact ⟨fun h => ⟨fun u hu => (h u hu).1, fun u hu => (h u hu).2⟩, fun h u hu => ⟨h.1 u hu, h.2 u hu⟩⟩
  refine ⟨by simp; omega, by simp; omega, by omega, fun i ha hb ht => ⟨t2 i ht, ?_, ?_⟩⟩
  · rw [List.getElem_zipWith, Bool.and_eq_true, t2 i ht, c2 i (by simp at ha; omega), hcov]
  · rw [List.getElem_zipWith, Bool.and_eq_true, List.getElem_map, Bool.not_eq_true', ← Bool.not_eq_true, t2 i ht,
      c2 i (by simp at ha; omega), hcov]

/-- C12: `filter` answers whenever all columns are present, comparable, and the description leaves the target alone -/
theorem C12_total (s : Subgroup) (df : Frame)
    (h : ∀ u ∈ s.target :: s.description.sels, ∃ col, df.cols.lookup u.attr = some col ∧
      ∀ v ∈ col, ∃ b, u.op.evaluate v u.val = .ok b)
    (ht : ∀ u ∈ s.description.sels, u.attr ≠ s.target.attr) : ∃ r, s.filter df = .ok r := by
  obtain ⟨tc, h1, h2⟩ := h s.target (by simp)
  have hcol : df.col s.target.attr = .ok tc := by simp [Frame.col, h1]
  have hdrop : Subgroup.dropColumn df s.target.attr = .ok ⟨df.nrows, df.cols.filter (fun c => c.1 != s.target.attr)⟩ := by
    unfold Subgroup.dropColumn
    rw [if_pos]
    obtain ⟨l1, l2, h3, _⟩ := List.lookup_eq_some_iff.1 h1
    rw [List.any_eq_true]
    exact ⟨(s.target.attr, tc), by simp [h3], by simp⟩
  obtain ⟨tm, htm⟩ := mapM_ok_of_all (fun v => s.target.op.evaluate v s.target.val) tc h2
  obtain ⟨m, hm⟩ := C08_total s.description ⟨df.nrows, df.cols.filter (fun c => c.1 != s.target.attr)⟩ (by
    intro u hu
    obtain ⟨c, h3, h4⟩ := h u (by simp [hu])
    exact ⟨c, by simp only [lookup_filter_ne (ht u hu)]; exact h3, h4⟩)
  refine ⟨(List.zipWith (· && ·) m tm, List.zipWith (· && ·) m (tm.map (!·)), tm), ?_⟩
  unfold Subgroup.filter
  rw [hdrop, hcol]
  simp only [bind, Except.bind, hm]
  have : s.target.matchSeries tc = .ok tm := htm
  rw [this]
  rfl

example : (⟨Pattern.new [⟨c!"a", .equal, .int 1⟩], ⟨c!"t", .equal, .str c!"y"⟩⟩ : Subgroup).filter
    ⟨3, [(c!"a", [.int 1, .int 1, .int 0]), (c!"t", [.str c!"y", .str c!"n", .str c!"y"])]⟩
    = .ok ([true, false, false], [false, true, false], [true, false, true]) := by decide +kernel

/-! ## C55 -/

theorem forall₂_eq_iff (l m : List Selector) : List.Forall₂ (fun a b => a.eq b = true) l m ↔ l.map Selector.key = m.map Selector.key := by
  induction l generalizing m with
  | nil => cases m <;> simp
  | cons a l ih => cases m with
    | nil => simp
    | cons b m => rw [List.forall₂_cons, ih, Selector.eq_iff_key]; simp

/-- C55: subgroups are `==` exactly when their descriptions have equal selectors, one by one, and their targets are equal. -/
theorem C55_eq (s t : Subgroup) :
    s.eq t = true ↔ List.Forall₂ (fun a b => a.eq b = true) s.description.sels t.description.sels ∧ s.target.eq t.target = true := by
  unfold Subgroup.eq
  rw [Bool.and_eq_true, Pattern.eq_iff_keys, forall₂_eq_iff]

/-- C55: `!=` is the negation of `==`. -/
theorem C55_ne (s t : Subgroup) : s.ne t = !s.eq t := by
  unfold Subgroup.ne Subgroup.eq
  rw [Pattern.ne_eq, Selector.ne_eq, Bool.not_and]

/-- C55: `==` is an equivalence relation, and a copy is equal to the original. -/
theorem C55_equivalence (s t u : Subgroup) :
    s.eq s = true ∧ s.copy.eq s = true ∧ (s.eq t = true → t.eq s = true) ∧ (s.eq t = true → t.eq u = true → s.eq u = true) := by
  simp only [Subgroup.eq, Subgroup.copy, Pattern.copy, Bool.and_eq_true, Pattern.eq_iff_keys, Selector.eq_iff_key]
  refine ⟨⟨trivial, trivial⟩, ⟨trivial, trivial⟩, fun h => ⟨h.1.symm, h.2.symm⟩, fun h g => ⟨h.1.trans g.1, h.2.trans g.2⟩⟩

/-- C55: equal descriptions with different targets, and different descriptions with equal targets, are different subgroups -/
example : (⟨Pattern.new [⟨c!"a", .equal, .int 1⟩], ⟨c!"t", .equal, .str c!"y"⟩⟩ : Subgroup).eq ⟨Pattern.new [⟨c!"a", .equal, .int 1⟩], ⟨c!"t", .equal, .str c!"n"⟩⟩ = false ∧
    (⟨Pattern.new [⟨c!"a", .equal, .int 1⟩], ⟨c!"t", .equal, .str c!"y"⟩⟩ : Subgroup).ne ⟨Pattern.new [⟨c!"a", .equal, .int 2⟩], ⟨c!"t", .equal, .str c!"y"⟩⟩ = true := by
  decide +kernel

end Verif

import Verif.Lemmas.SDMap
/-! Properties C23 - C25, C50: SDMap evaluates exactly the frequent descriptions, once each, with exact counts. -/
namespace Verif
open Spec
section
open Classical

/-! ## specification -/

/-- `X` is a description that must be reported: `attribute = 'text'` selectors on non-target columns, in the order of the class
`Pattern`, that covers some row and meets the thresholds -/
def Spec.Reportable (th : Thresholds) (df : Frame) (target : Str × Str) (X : List Selector) : Prop :=
  Describes target X ∧ X.Pairwise (fun a b => a.lt b = true) ∧ OccursIn df X ∧ Frequent th (tpOf df target X) (fpOf df target X)

/-- the value of the measure for the counts of `X` in the data -/
noncomputable def Spec.qualityOf (cfg : SDMapConfig) (df : Frame) (target : Str × Str) (X : List Selector) : Except PyErr Rat :=
  cfg.measure (paramsFor (tpOf df target X) (fpOf df target X) (tpOf df target []) (fpOf df target []) cfg.extra)

/-- the line that reports `X` with quality `q` -/
noncomputable def Spec.lineOf (df : Frame) (target : Str × Str) (X : List Selector) (q : Rat) : ResultLine :=
  ⟨⟨⟨X⟩, targetSel target⟩, q, tpOf df target X, fpOf df target X, tpOf df target [], fpOf df target []⟩

/-! ## the calls of `_handle_individual_result` -/

/-- the calls of the enumeration are exact, as patterns -/
structure CallsExact (th : Thresholds) (df : Frame) (target : Str × Str) (calls : List (Pattern × Cnt)) : Prop where
  sound : ∀ r ∈ calls, Reportable th df target r.1.sels ∧ r.2 = (tpOf df target r.1.sels, fpOf df target r.1.sels)
  complete : ∀ X, Reportable th df target X → ∃ r ∈ calls, r.1.sels = X
  distinct : (calls.map (·.1)).Nodup

theorem textEq_of_describes {target : Str × Str} {X : List Selector} (h : Describes target X) : ∀ s ∈ X, TextEq s :=
  fun s hs => ⟨(h.2 s hs).2.1, (h.2 s hs).2.2⟩

theorem sorted_iff_lt {X : List Selector} (h : ∀ s ∈ X, TextEq s) : X.Pairwise (fun a b => a.lt b = true) ↔ Pattern.Sorted X := by
  constructor
  · intro hh; exact hh.imp_of_mem (fun ha hb hab => (TextEq.lt_key (h _ ha) (h _ hb)).1 hab)
  · intro hh; exact List.Pairwise.imp_of_mem (fun ha hb hab => (TextEq.lt_key (h _ ha) (h _ hb)).2 hab) hh

theorem callsExact_of {th : Thresholds} {df : Frame} {target : Str × Str} {F : List (Emission Selector)} (h : ExactOn th df target F) :
    CallsExact th df target (F.map (fun r => (Pattern.new r.1, r.2))) := by
  refine ⟨?_, ?_, ?_⟩
  · intro r hr
    obtain ⟨e, he, rfl⟩ := List.mem_map.1 hr
    obtain ⟨h1, h2, h3, h4, h5⟩ := h.sound e he
    obtain ⟨n1, n2⟩ := new_text (textEq_of_describes h1)
    simp only
    rw [tpOf_congr n2, fpOf_congr n2]
    refine ⟨⟨⟨?_, fun s hs => h1.2 s ((n2 s).1 hs)⟩, ?_, ?_, ?_⟩, h4⟩
    · intro hn
      obtain ⟨x, l, hxl⟩ := List.exists_cons_of_ne_nil h1.1
      have := (n2 x).2 (by rw [hxl]; simp)
      rw [hn] at this; simp at this
    · exact (sorted_iff_lt (fun s hs => textEq_of_describes h1 s ((n2 s).1 hs))).2 n1
    · obtain ⟨i, hi, hc⟩ := h3
      exact ⟨i, hi, (covers_congr n2 i).2 hc⟩
    · rw [tpOf_congr n2, fpOf_congr n2]
      rw [h4] at h5; exact h5
  · rintro X ⟨h1, h2, h3, h4⟩
    obtain ⟨e, he, hx⟩ := h.complete X h1 h3 h4
    refine ⟨_, List.mem_map.2 ⟨e, he, rfl⟩, ?_⟩
    have ht : ∀ s ∈ e.1, TextEq s := fun s hs => textEq_of_describes h1 s ((hx s).1 hs)
    obtain ⟨n1, n2⟩ := new_text ht
    exact sorted_ext n1 ((sorted_iff_lt (textEq_of_describes h1)).1 h2) (fun s hs => ht s ((n2 s).1 hs))
      (fun s => (n2 s).trans (hx s))
  · rw [List.map_map, List.Nodup, List.pairwise_map]
    refine h.distinct.imp_of_mem ?_
    intro e f he hf hd hh
    apply hd
    intro x
    have ne := (new_text (textEq_of_describes (h.sound e he).1)).2 x
    have nf := (new_text (textEq_of_describes (h.sound f hf).1)).2 x
    simp only [Function.comp_apply] at hh
    rw [← ne, ← nf, hh]

/-- the loop over the results -/
theorem foldlM_handle {cfg : SDMapConfig} {target : Str × Str} {TP FP : Nat} (calls : List (Pattern × Cnt)) (st st' : SDMapState)
    (h : calls.foldlM (cfg.handle target TP FP) st = .ok st') :
    st'.calls = st.calls ++ calls ∧
    st'.selected + st'.unselected = st.selected + st.unselected + calls.length ∧
    ∃ lines, st'.file = st.file ++ lines ∧ st'.selected = st.selected + lines.length ∧
      (lines.map (·.subgroup.description)).Sublist (calls.map (·.1)) ∧
      ∀ l, l ∈ lines ↔ ∃ r ∈ calls, cfg.measure (paramsFor r.2.1 r.2.2 TP FP cfg.extra) = .ok l.quality ∧ cfg.minQuality ≤ l.quality ∧
        l = ⟨⟨r.1, targetSel target⟩, l.quality, r.2.1, r.2.2, TP, FP⟩ := by
  induction calls generalizing st with
  | nil =>
    simp only [List.foldlM_nil] at h
    cases h
    exact ⟨by simp, by simp, [], by simp, by simp, by simp, by simp⟩
  | cons r calls ih =>
    rw [List.foldlM_cons] at h
    cases hq : cfg.measure (paramsFor r.2.1 r.2.2 TP FP cfg.extra) with
    | error e =>
      have : cfg.handle target TP FP st r = .error e := by unfold SDMapConfig.handle; rw [hq]
      rw [this] at h
      cases h
    | ok q =>
      by_cases hge : q ≥ cfg.minQuality
      · have heq : cfg.handle target TP FP st r = .ok { st with
          selected := st.selected + 1
          file := st.file ++ [⟨⟨r.1, ⟨target.1, .equal, .str target.2⟩⟩, q, r.2.1, r.2.2, TP, FP⟩]
          calls := st.calls ++ [r] } := by
          unfold SDMapConfig.handle; rw [hq]; simp only; rw [if_pos hge]
        rw [heq] at h
        obtain ⟨h1, h2, lines, h3, h4, h5, h6⟩ := ih _ h
        refine ⟨by rw [h1]; simp, by rw [h2]; simp; omega, _ :: lines, by rw [h3, List.append_assoc, List.singleton_append],
          by rw [h4]; simp; omega, ?_, ?_⟩
        · simp only [List.map_cons]
          exact h5.cons_cons _
        · intro l
          rw [List.mem_cons, h6, List.exists_mem_cons_iff, hq]
          constructor
          · rintro (h7 | h7)
            · left; rw [h7]; exact ⟨rfl, hge, rfl⟩
            · right; exact h7
          · rintro (⟨h7, h8, h9⟩ | h7)
            · left
              have : q = l.quality := Except.ok.inj h7
              rw [this]
              exact h9
            · right; exact h7
      · have heq : cfg.handle target TP FP st r = .ok { st with unselected := st.unselected + 1, calls := st.calls ++ [r] } := by
          unfold SDMapConfig.handle; rw [hq]; simp only; rw [if_neg hge]
        rw [heq] at h
        obtain ⟨h1, h2, lines, h3, h4, h5, h6⟩ := ih _ h
        refine ⟨by rw [h1]; simp, by rw [h2]; simp; omega, lines, h3, h4, ?_, ?_⟩
        · simp only [List.map_cons]
          exact h5.trans (List.sublist_cons_self _ _)
        · intro l
          rw [h6, List.exists_mem_cons_iff, hq]
          constructor
          · intro h7; right; exact h7
          · rintro (⟨h7, h8, h9⟩ | h7)
            · have : q = l.quality := Except.ok.inj h7
              rw [← this] at h8
              exact absurd h8 hge
            · exact h7

theorem sorted_order_perm : ∀ t : FPTree Selector, t.sorted = t.sortHeader.sorted → (FPTree.sorted t).Perm (t.header.map (·.1)) :=
  fun _ h => FPTree.sorted_perm h

/-- `SDMap.fit` with the visiting order as a parameter -/
def fitOrder (order : FPTree Selector → List Selector) (cfg : SDMapConfig) (st : SDMapState) (df : Frame) (target : Str × Str) :
    Except PyErr SDMapState :=
  match nominalResults order cfg.th df target with
  | .error e => .error e
  | .ok (none, _, _) => .ok st
  | .ok (some rs, TP, FP) =>
    (rs.map (fun r => (Pattern.new r.1, r.2))).foldlM (cfg.handle target TP FP) { st with file := [] }

/-- everything about one `fit` -/
theorem fitOrder_spec {order : FPTree Selector → List Selector}
    (horder : ∀ t : FPTree Selector, t.sorted = t.sortHeader.sorted → (order t).Perm (t.header.map (·.1)))
    {cfg : SDMapConfig} {df : Frame} {target : Str × Str} (hf : NominalFrame df target) (hk : KeysFaithful df target)
    {st st' : SDMapState} (h : fitOrder order cfg st df target = .ok st') :
    ∃ calls, CallsExact cfg.th df target calls ∧ st'.calls = st.calls ++ calls ∧
      st'.selected + st'.unselected = st.selected + st.unselected + calls.length ∧
      (calls = [] → st' = st) ∧
      (calls ≠ [] → st'.selected = st.selected + st'.file.length ∧
        (st'.file.map (·.subgroup.description)).Sublist (calls.map (·.1)) ∧
        ∀ l, l ∈ st'.file ↔ ∃ X, Reportable cfg.th df target X ∧ qualityOf cfg df target X = .ok l.quality ∧
          cfg.minQuality ≤ l.quality ∧ l = lineOf df target X l.quality) := by
  obtain ⟨o, h1, h2, h3⟩ := nominalResults_exact (th := cfg.th) horder hf hk
  unfold fitOrder at h
  rw [h1] at h
  cases o with
  | none =>
    simp only at h
    cases h
    have := callsExact_of h2
    exact ⟨[], this, by simp, by simp, fun _ => rfl, fun hh => absurd rfl hh⟩
  | some F =>
    simp only at h
    have hc := callsExact_of h2
    simp only [Option.getD_some] at hc
    obtain ⟨g1, g2, lines, g3, g4, g5, g6⟩ := foldlM_handle _ _ _ h
    refine ⟨_, hc, g1, g2, ?_, ?_⟩
    · intro hn
      have hF : F = [] := by simpa using hn
      exact absurd (h3.2 (by simpa using hF)) (by simp)
    · intro _
      simp only [List.nil_append] at g3
      refine ⟨by rw [g4, g3], by rw [g3]; exact g5, ?_⟩
      intro l
      rw [g3, g6]
      constructor
      · rintro ⟨r, hr, q1, q2, q3⟩
        obtain ⟨s1, s2⟩ := hc.sound r hr
        refine ⟨r.1.sels, s1, ?_, q2, ?_⟩
        · unfold qualityOf
          rw [s2] at q1; exact q1
        · rw [s2] at q3
          exact q3
      · rintro ⟨X, s1, q1, q2, q3⟩
        obtain ⟨r, hr, rfl⟩ := hc.complete X s1
        obtain ⟨_, s2⟩ := hc.sound r hr
        refine ⟨r, hr, ?_, q2, ?_⟩
        · rw [s2]; exact q1
        · rw [s2]; exact q3

theorem fit_spec {cfg : SDMapConfig} {df : Frame} {target : Str × Str} (hf : NominalFrame df target) (hk : KeysFaithful df target)
    {st st' : SDMapState} (h : cfg.fit st df target = .ok st') :
    ∃ calls, CallsExact cfg.th df target calls ∧ st'.calls = st.calls ++ calls ∧
      st'.selected + st'.unselected = st.selected + st.unselected + calls.length ∧
      (calls = [] → st' = st) ∧
      (calls ≠ [] → st'.selected = st.selected + st'.file.length ∧
        (st'.file.map (·.subgroup.description)).Sublist (calls.map (·.1)) ∧
        ∀ l, l ∈ st'.file ↔ ∃ X, Reportable cfg.th df target X ∧ qualityOf cfg df target X = .ok l.quality ∧
          cfg.minQuality ≤ l.quality ∧ l = lineOf df target X l.quality) :=
  fitOrder_spec (order := FPTree.sorted) sorted_order_perm hf hk h

/-- C23: every description that SDMap evaluates in a `fit` is a (sorted, hence duplicate-free) non-empty set of `attribute =
'text'` selectors on non-target columns that covers some row, meets the thresholds and is evaluated with its exact counts. -/
theorem C23_evaluated (cfg : SDMapConfig) (df : Frame) (target : Str × Str) (hf : NominalFrame df target) (hk : KeysFaithful df target)
    (st st' : SDMapState) (h : cfg.fit st df target = .ok st') :
    ∃ calls, st'.calls = st.calls ++ calls ∧
      ∀ r ∈ calls, Reportable cfg.th df target r.1.sels ∧ r.2 = (tpOf df target r.1.sels, fpOf df target r.1.sels) := by
  obtain ⟨calls, h1, h2, _⟩ := fit_spec hf hk h
  exact ⟨calls, h2, h1.sound⟩

/-- C23: a line is in the file after `fit` exactly when it reports, with exact counts and quality, a frequent description whose
quality reaches the minimum (if there is no frequent description at all the file is left as it was). -/
theorem C23_written (cfg : SDMapConfig) (df : Frame) (target : Str × Str) (hf : NominalFrame df target) (hk : KeysFaithful df target)
    (st st' : SDMapState) (h : cfg.fit st df target = .ok st') (hex : ∃ X, Reportable cfg.th df target X) (l : ResultLine) :
    l ∈ st'.file ↔ ∃ X q, Reportable cfg.th df target X ∧ qualityOf cfg df target X = .ok q ∧ cfg.minQuality ≤ q ∧
      l = lineOf df target X q := by
  obtain ⟨calls, h1, _, _, _, h5⟩ := fit_spec hf hk h
  obtain ⟨X, hX⟩ := hex
  have hne : calls ≠ [] := by
    intro hn
    obtain ⟨r, hr, _⟩ := h1.complete X hX
    rw [hn] at hr; simp at hr
  rw [(h5 hne).2.2 l]
  constructor
  · rintro ⟨X, a, b, c, d⟩; exact ⟨X, _, a, b, c, d⟩
  · rintro ⟨X, q, a, b, c, d⟩
    have : l.quality = q := by rw [d]; rfl
    rw [← this] at b c d
    exact ⟨X, a, b, c, d⟩

/-- C23: with no frequent description `fit` changes nothing, not even an older result file. -/
theorem C23_nothing (cfg : SDMapConfig) (df : Frame) (target : Str × Str) (hf : NominalFrame df target) (hk : KeysFaithful df target)
    (st st' : SDMapState) (h : cfg.fit st df target = .ok st') (hex : ¬ ∃ X, Reportable cfg.th df target X) : st' = st := by
  obtain ⟨calls, h1, _, _, h4, _⟩ := fit_spec hf hk h
  apply h4
  by_contra hn
  obtain ⟨r, l, hr⟩ := List.exists_cons_of_ne_nil hn
  exact hex ⟨_, (h1.sound r (by rw [hr]; simp)).1⟩

/-- C24: every frequent description of the data is evaluated. -/
theorem C24 (cfg : SDMapConfig) (df : Frame) (target : Str × Str) (hf : NominalFrame df target) (hk : KeysFaithful df target)
    (st st' : SDMapState) (h : cfg.fit st df target = .ok st') :
    ∃ calls, st'.calls = st.calls ++ calls ∧ ∀ X, Reportable cfg.th df target X → ∃ r ∈ calls, r.1.sels = X := by
  obtain ⟨calls, h1, h2, _⟩ := fit_spec hf hk h
  exact ⟨calls, h2, h1.complete⟩

theorem foldlM_handle_ok {cfg : SDMapConfig} {target : Str × Str} {TP FP : Nat} (calls : List (Pattern × Cnt)) (s0 : SDMapState) :
    (∃ s, calls.foldlM (cfg.handle target TP FP) s0 = .ok s) ↔
      ∀ r ∈ calls, ∃ q, cfg.measure (paramsFor r.2.1 r.2.2 TP FP cfg.extra) = .ok q := by
  induction calls generalizing s0 with
  | nil => simp; exact ⟨s0, rfl⟩
  | cons r calls ih =>
    rw [List.foldlM_cons, List.forall_mem_cons]
    cases hq : cfg.measure (paramsFor r.2.1 r.2.2 TP FP cfg.extra) with
    | error e =>
      have : cfg.handle target TP FP s0 r = .error e := by unfold SDMapConfig.handle; rw [hq]
      rw [this]
      constructor
      · rintro ⟨s, hs⟩; cases hs
      · rintro ⟨⟨q, h⟩, _⟩; cases h
    | ok q =>
      have : ∃ s1, cfg.handle target TP FP s0 r = .ok s1 := by
        unfold SDMapConfig.handle; rw [hq]; simp only; split <;> exact ⟨_, rfl⟩
      obtain ⟨s1, hs1⟩ := this
      rw [hs1]
      refine (ih s1).trans ?_
      exact ⟨fun h => ⟨⟨q, rfl⟩, h⟩, fun h => h.2⟩

theorem fitOrder_total {order : FPTree Selector → List Selector}
    (horder : ∀ t : FPTree Selector, t.sorted = t.sortHeader.sorted → (order t).Perm (t.header.map (·.1)))
    (cfg : SDMapConfig) (df : Frame) (target : Str × Str) (hf : NominalFrame df target) (hk : KeysFaithful df target)
    (st : SDMapState) : (∃ st', fitOrder order cfg st df target = .ok st') ↔
      ∀ X, Reportable cfg.th df target X → ∃ q, qualityOf cfg df target X = .ok q := by
  obtain ⟨o, h1, h2, h3⟩ := nominalResults_exact (th := cfg.th) horder hf hk
  unfold fitOrder
  rw [h1]
  have hc := callsExact_of h2
  cases o with
  | none =>
    simp only [Except.ok.injEq, exists_eq', true_iff]
    intro X hX
    obtain ⟨r, hr, _⟩ := hc.complete X hX
    simp at hr
  | some F =>
    simp only [Option.getD_some] at hc ⊢
    rw [foldlM_handle_ok]
    constructor
    · intro h X hX
      obtain ⟨r, hr, rfl⟩ := hc.complete X hX
      have := h r hr
      rw [(hc.sound r hr).2] at this
      exact this
    · intro h r hr
      obtain ⟨a, b⟩ := hc.sound r hr
      rw [b]; exact h _ a

/-- C24: `fit` succeeds exactly when the measure is defined on the counts of every frequent description. -/
theorem C24_total (cfg : SDMapConfig) (df : Frame) (target : Str × Str) (hf : NominalFrame df target) (hk : KeysFaithful df target)
    (st : SDMapState) : (∃ st', cfg.fit st df target = .ok st') ↔
      ∀ X, Reportable cfg.th df target X → ∃ q, qualityOf cfg df target X = .ok q :=
  fitOrder_total (order := FPTree.sorted) sorted_order_perm cfg df target hf hk st

/-- C25: no description is evaluated twice (patterns that compare equal are the same list of selectors here), and the counters grow
by the number of evaluated descriptions. -/
theorem C25_once (cfg : SDMapConfig) (df : Frame) (target : Str × Str) (hf : NominalFrame df target) (hk : KeysFaithful df target)
    (st st' : SDMapState) (h : cfg.fit st df target = .ok st') :
    ∃ calls, st'.calls = st.calls ++ calls ∧ calls.Pairwise (fun r r' => r.1.eq r'.1 = false) ∧
      st'.selected + st'.unselected = st.selected + st.unselected + calls.length := by
  obtain ⟨calls, h1, h2, h3, _⟩ := fit_spec hf hk h
  refine ⟨calls, h2, ?_, h3⟩
  have := h1.distinct
  rw [List.Nodup, List.pairwise_map] at this
  refine this.imp_of_mem ?_
  intro a b ha hb hne
  rw [← Bool.not_eq_true, Pattern.eq_iff_keys]
  intro hkey
  apply hne
  have ta := textEq_of_describes (h1.sound a ha).1.1
  have tb := textEq_of_describes (h1.sound b hb).1.1
  have sa := (sorted_iff_lt ta).1 (h1.sound a ha).1.2.1
  have sb := (sorted_iff_lt tb).1 (h1.sound b hb).1.2.1
  have : a.1.sels = b.1.sels := by
    apply sorted_ext sa sb ta
    intro s
    constructor
    · intro hs
      have : s.key ∈ b.1.sels.map Selector.key := by rw [← hkey]; exact List.mem_map_of_mem hs
      obtain ⟨t, ht, hk'⟩ := List.mem_map.1 this
      rwa [TextEq.key_inj (ta s hs) (tb t ht) hk'.symm]
    · intro hs
      have : s.key ∈ a.1.sels.map Selector.key := by rw [hkey]; exact List.mem_map_of_mem hs
      obtain ⟨t, ht, hk'⟩ := List.mem_map.1 this
      rwa [TextEq.key_inj (tb s hs) (ta t ht) hk'.symm]
  cases h : a.1; cases h' : b.1; rw [h, h'] at this; simpa using this

/-- C25: the selected subgroups are the lines of the file, which never repeat a description. -/
theorem C25_selected (cfg : SDMapConfig) (df : Frame) (target : Str × Str) (hf : NominalFrame df target) (hk : KeysFaithful df target)
    (st st' : SDMapState) (h : cfg.fit st df target = .ok st') (hex : ∃ X, Reportable cfg.th df target X) :
    st'.selected = st.selected + st'.file.length ∧ (st'.file.map (·.subgroup.description)).Nodup := by
  obtain ⟨calls, h1, _, _, _, h5⟩ := fit_spec hf hk h
  obtain ⟨X, hX⟩ := hex
  have hne : calls ≠ [] := by
    intro hn
    obtain ⟨r, hr, _⟩ := h1.complete X hX
    rw [hn] at hr; simp at hr
  exact ⟨(h5 hne).1, h1.distinct.sublist (h5 hne).2.1⟩

/-- C23: a data set with an attribute that is not nominal, or without the target column, is refused. -/
theorem C23_refused (cfg : SDMapConfig) (df : Frame) (target : Str × Str) (st : SDMapState) :
    ((∃ c ∈ df.cols, ∃ v ∈ c.2, v.isStr = false) → cfg.fit st df target = .error .datasetAttributeType) ∧
    ((∀ c ∈ df.cols, ∀ v ∈ c.2, v.isStr = true) → target.1 ∉ df.cols.map (·.1) → cfg.fit st df target = .error .keyError) := by
  constructor
  · rintro ⟨c, hc, v, hv, h⟩
    have : df.nominal = false := by
      simp only [Frame.nominal, List.all_eq_false, Bool.not_eq_true]
      exact ⟨c, hc, ⟨v, hv, h⟩⟩
    unfold SDMapConfig.fit nominalResults
    rw [this]; rfl
  · intro h1 h2
    have : df.nominal = true := by
      simp only [Frame.nominal, List.all_eq_true]; exact h1
    have hl : df.cols.lookup target.1 = none := lookup_none.2 h2
    unfold SDMapConfig.fit nominalResults targetMask Frame.col
    rw [this, hl]; rfl

/-! ## C50 -/

/-- C50: `_generate_all_combinations` returns every sub-list exactly once. -/
theorem C50 {α : Type} (l : List α) :
    (∀ m, m ∈ allCombinations l ↔ m.Sublist l) ∧ (allCombinations l).length = 2 ^ l.length ∧ [] ∈ allCombinations l ∧
    (l.Nodup → (allCombinations l).Nodup ∧ ∀ m ∈ allCombinations l, ∀ m' ∈ allCombinations l, (∀ x, x ∈ m ↔ x ∈ m') → m = m') := by
  rw [allCombinations_eq]
  refine ⟨fun m => List.mem_sublists', List.length_sublists' l, by simp, fun hn => ⟨List.nodup_sublists'.2 hn, ?_⟩⟩
  intro m hm m' hm' hx
  rw [FPTree.eq_filter_of_sublist hn (List.mem_sublists'.1 hm), FPTree.eq_filter_of_sublist hn (List.mem_sublists'.1 hm')]
  simp only [hx]

example : allCombinations [1, 2, 3] = [[], [3], [2], [2, 3], [1], [1, 3], [1, 2], [1, 2, 3]] := by decide +kernel

end
/-! ## non-vacuity -/

/-- three rows, two attributes and a target -/
def Spec.demoFrame : Frame :=
  ⟨4, [(c!"a", [.str c!"x", .str c!"x", .str c!"y", .str c!"x"]), (c!"b", [.str c!"p", .str c!"q", .str c!"p", .str c!"p"]),
    (c!"t", [.str c!"yes", .str c!"no", .str c!"yes", .str c!"no"])]⟩

example : NominalFrame demoFrame (c!"t", c!"yes") ∧ KeysFaithful demoFrame (c!"t", c!"yes") := by
  have h : NominalFrame demoFrame (c!"t", c!"yes") := by
    refine ⟨?_, by decide +kernel, ?_, by decide +kernel⟩
    · intro c hc; simp [demoFrame] at hc; rcases hc with rfl | rfl | rfl <;> rfl
    · intro c hc; simp [demoFrame] at hc
      rcases hc with rfl | rfl | rfl <;> simp
  refine ⟨h, keysFaithful_of_no_quotes h ?_⟩
  intro c hc; simp [demoFrame] at hc
  rcases hc with rfl | rfl | rfl <;> decide +kernel

/-- the evaluation on that data set (WRAcc, minimum tp 1 and fp 0) -/
example : (match (SDMapConfig.new Quality.wracc 0 (some 1) (some 0) none []) with
    | .ok cfg => (match cfg.fit ⟨0, 0, [], []⟩ demoFrame (c!"t", c!"yes") with
      | .ok st => some (st.selected, st.unselected, st.calls.map (fun r => r.2))
      | .error _ => none)
    | .error _ => none) = some (4, 1, [(1, 0), (1, 0), (1, 2), (2, 1), (1, 1)]) := by decide +kernel

end Verif

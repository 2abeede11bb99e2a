import Verif.Lemmas.ResultFiles
import Verif.Props.OutFile
import Verif.Props.VLSD
import Verif.Props.SDMapStar
import Verif.Props.BSD
import Verif.Props.QFinder
import Verif.Props.SDIGA
/-! Property C79: the result files of VLSD, SDMapStar, SDIGA, BSD, IDSD and QFinder at every moment of a run, and after runs that raise. -/
namespace Verif
open Spec OutFile

namespace Spec
variable {Seq : Type}

/-- the line of VLSD for a subgroup -/
def vlineText (name oeName : Str) (fs : Rat → Str) (ss : Seq → Str) (l : VLine Seq) : Str :=
  l.subgroup.str ++ c!" ; Sequence of instances tp = " ++ ss l.tpSeq ++ c!" ; Sequence of instances fp = " ++ ss l.fpSeq ++
    c!" ; Quality Measure " ++ name ++ c!" = " ++ fs l.quality ++ c!" ; Optimistic Estimate " ++ oeName ++ c!" = " ++ fs l.estimate ++
    c!" ; tp = " ++ natStr l.tp ++ c!" ; fp = " ++ natStr l.fp ++ c!" ; TP = " ++ natStr l.TP ++ c!" ; FP = " ++ natStr l.FP ++ c!"\n"

/-- a result file of VLSD -/
def vresultText (name oeName : Str) (fs : Rat → Str) (ss : Seq → Str) (ls : List (VLine Seq)) : Str := ls.flatMap (vlineText name oeName fs ss)

/-- the line for a vertical list, when its quality is `q` -/
def vlineOf (target : Str × Str) (TP FP : Nat) (v : VList Selector Seq) (q : Rat) : VLine Seq :=
  ⟨⟨Pattern.new v.sels, ⟨target.1, .equal, .str target.2⟩⟩, v.tpSeq, v.fpSeq, q, v.quality, v.tp, v.fp, TP, FP⟩

/-- the lines for some vertical lists: one for each whose quality reaches the threshold -/
def vaccepted (cfg : VLSDConfig) (target : Str × Str) (TP FP : Nat) (calls : List (VList Selector Seq)) : List (VLine Seq) :=
  calls.filterMap (fun v => match cfg.measure (paramsFor v.tp v.fp TP FP cfg.extra) with
    | .ok q => if cfg.minQuality ≤ q then some (vlineOf target TP FP v q) else none
    | .error _ => none)

/-- all the vertical lists that `fit` handles, in their order: they do not depend on the measure -/
def VDescriptions (I : VLImpl Seq) (cfg : VLSDConfig) (df : Frame) (target : Str × Str) (all : List (VList Selector Seq)) : Prop :=
  ∃ r, ({ cfg with measure := fun _ => .ok 0 } : VLSDConfig).fit I newVLSD df target = .ok r ∧ r.calls = all

end Spec

/-! ### handlers and their texts -/

/-- a handler that raises when the judge does -/
theorem fold_judge {ι σ : Type} {h : σ → ι → Except PyErr σ} {judge : ι → Except PyErr (Option (List Str))}
    (hj : ∀ st x, (∃ e, h st x = .error e ∧ judge x = .error e) ∨ ∃ st' r, h st x = .ok st' ∧ judge x = .ok r) (xs : List ι) (st : σ) :
    (∀ st', xs.foldlM h st = .ok st' → ∀ x ∈ xs, ∃ r, judge x = .ok r) ∧
    (∀ e, xs.foldlM h st = .error e → ∃ n x, xs[n]? = some x ∧ judge x = .error e ∧ ∀ y ∈ xs.take n, ∃ r, judge y = .ok r) := by
  induction xs generalizing st with
  | nil => exact ⟨fun _ _ => by simp, fun e he => by cases he⟩
  | cons x xs ih =>
    rw [foldlM_cons']
    rcases hj st x with ⟨e, h1, h2⟩ | ⟨st1, r, h1, h2⟩
    · rw [h1]
      exact ⟨fun _ he => (by cases he), fun e' he => ⟨0, x, rfl, by cases he; exact h2, by simp⟩⟩
    · rw [h1]
      obtain ⟨i1, i2⟩ := ih st1
      refine ⟨fun st' he y hy => ?_, fun e he => ?_⟩
      · rcases List.mem_cons.1 hy with rfl | hy
        · exact ⟨r, h2⟩
        · exact i1 st' he y hy
      · obtain ⟨n, y, k1, k2, k3⟩ := i2 e he
        refine ⟨n + 1, y, by simpa using k1, k2, fun z hz => ?_⟩
        rw [List.take_succ_cons] at hz
        rcases List.mem_cons.1 hz with rfl | hz
        · exact ⟨r, h2⟩
        · exact k3 z hz

/-- if the judge accepts everything up to item `n` and not item `n`, that is the only such `n` -/
theorem first_error {ι : Type} {judge : ι → Except PyErr (Option (List Str))} {xs : List ι} {n m : Nat} {x y : ι} {e e' : PyErr}
    (h1 : xs[n]? = some x) (h2 : judge x = .error e) (h3 : ∀ z ∈ xs.take n, ∃ r, judge z = .ok r)
    (k1 : xs[m]? = some y) (k2 : judge y = .error e') (k3 : ∀ z ∈ xs.take m, ∃ r, judge z = .ok r) : n = m ∧ x = y ∧ e = e' := by
  have hnm : n = m := by
    rcases Nat.lt_trichotomy n m with h | h | h
    · obtain ⟨r, hr⟩ := k3 x (List.mem_iff_getElem?.2 ⟨n, by rw [List.getElem?_take, if_pos h]; exact h1⟩)
      rw [h2] at hr; cases hr
    · exact h
    · obtain ⟨r, hr⟩ := h3 y (List.mem_iff_getElem?.2 ⟨m, by rw [List.getElem?_take, if_pos h]; exact k1⟩)
      rw [k2] at hr; cases hr
  subst hnm
  rw [h1] at k1
  cases k1
  rw [h2] at k2
  cases k2
  exact ⟨rfl, rfl, rfl⟩

section VLSD
variable {Seq : Type}

theorem vparts_text (name oeName : Str) (fs : Rat → Str) (ss : Seq → Str) (l : VLine Seq) : (l.parts name oeName fs ss).flatten = vlineText name oeName fs ss l := by
  have a1 : (c!" ; Sequence of instances tp = ") = c!" ; " ++ c!"Sequence of instances tp = " := rfl
  have a2 : (c!" ; Sequence of instances fp = ") = c!" ; " ++ c!"Sequence of instances fp = " := rfl
  have a3 : (c!" ; Quality Measure ") = c!" ; " ++ c!"Quality Measure " := rfl
  have a4 : (c!" ; Optimistic Estimate ") = c!" ; " ++ c!"Optimistic Estimate " := rfl
  have a5 : (c!" ; tp = ") = c!" ; " ++ c!"tp = " := rfl
  have a6 : (c!" ; fp = ") = c!" ; " ++ c!"fp = " := rfl
  have a7 : (c!" ; TP = ") = c!" ; " ++ c!"TP = " := rfl
  have a8 : (c!" ; FP = ") = c!" ; " ++ c!"FP = " := rfl
  unfold VLine.parts vlineText
  rw [a1, a2, a3, a4, a5, a6, a7, a8]
  simp only [List.flatten_cons, List.flatten_nil, List.append_assoc, List.append_nil]

theorem vjudge_handle (cfg : VLSDConfig) (name oeName : Str) (fs : Rat → Str) (ss : Seq → Str) (target : Str × Str) (TP FP : Nat) (st : VLState Seq) (v : VList Selector Seq) :
    (∃ e, cfg.handle target TP FP st v = .error e ∧ cfg.judge name oeName fs ss target TP FP v = .error e) ∨
    ∃ st' r, cfg.handle target TP FP st v = .ok st' ∧ cfg.judge name oeName fs ss target TP FP v = .ok r := by
  unfold VLSDConfig.handle VLSDConfig.judge
  cases cfg.measure (paramsFor v.tp v.fp TP FP cfg.extra) with
  | error e => exact Or.inl ⟨e, rfl, rfl⟩
  | ok q =>
    right
    simp only
    split
    · exact ⟨_, _, rfl, rfl⟩
    · exact ⟨_, _, rfl, rfl⟩

theorem vjudge_ok {cfg : VLSDConfig} {name oeName : Str} {fs : Rat → Str} {ss : Seq → Str} {target : Str × Str} {TP FP : Nat} {v : VList Selector Seq} :
    (∃ r, cfg.judge name oeName fs ss target TP FP v = .ok r) ↔ ∃ q, cfg.measure (paramsFor v.tp v.fp TP FP cfg.extra) = .ok q := by
  unfold VLSDConfig.judge
  cases cfg.measure (paramsFor v.tp v.fp TP FP cfg.extra) with
  | error e => simp
  | ok q => simp only; split <;> simp

theorem vjudge_error {cfg : VLSDConfig} {name oeName : Str} {fs : Rat → Str} {ss : Seq → Str} {target : Str × Str} {TP FP : Nat} {v : VList Selector Seq} {e : PyErr} :
    cfg.judge name oeName fs ss target TP FP v = .error e ↔ cfg.measure (paramsFor v.tp v.fp TP FP cfg.extra) = .error e := by
  unfold VLSDConfig.judge
  cases cfg.measure (paramsFor v.tp v.fp TP FP cfg.extra) with
  | error e => simp
  | ok q => simp only; split <;> simp

theorem vjudge_some {cfg : VLSDConfig} {name oeName : Str} {fs : Rat → Str} {ss : Seq → Str} {target : Str × Str} {TP FP : Nat} {v : VList Selector Seq} {ts : List Str}
    (h : cfg.judge name oeName fs ss target TP FP v = .ok (some ts)) :
    ∃ q, cfg.measure (paramsFor v.tp v.fp TP FP cfg.extra) = .ok q ∧ q ≥ cfg.minQuality ∧ ts.flatten = vlineText name oeName fs ss (vlineOf target TP FP v q) := by
  unfold VLSDConfig.judge at h
  cases hm : cfg.measure (paramsFor v.tp v.fp TP FP cfg.extra) with
  | error e => rw [hm] at h; cases h
  | ok q =>
    rw [hm] at h
    simp only at h
    by_cases hq : q ≥ cfg.minQuality
    · rw [if_pos hq] at h
      injection h with h
      injection h with h
      exact ⟨q, rfl, hq, by rw [← h, vparts_text]; rfl⟩
    · rw [if_neg hq] at h; cases h

theorem vtexts (cfg : VLSDConfig) (name oeName : Str) (fs : Rat → Str) (ss : Seq → Str) (target : Str × Str) (TP FP : Nat) (xs : List (VList Selector Seq)) :
    acceptedTexts (cfg.judge name oeName fs ss target TP FP) xs = (vaccepted cfg target TP FP xs).map (VLine.parts name oeName fs ss) := by
  unfold acceptedTexts vaccepted
  rw [List.map_filterMap]
  apply List.filterMap_congr
  intro v _
  unfold VLSDConfig.judge
  cases cfg.measure (paramsFor v.tp v.fp TP FP cfg.extra) with
  | error e => rfl
  | ok q =>
    simp only
    by_cases hq : q ≥ cfg.minQuality
    · rw [if_pos hq, if_pos hq]; rfl
    · rw [if_neg hq, if_neg hq]; rfl

theorem vtexts_flat (cfg : VLSDConfig) (name oeName : Str) (fs : Rat → Str) (ss : Seq → Str) (target : Str × Str) (TP FP : Nat) (xs : List (VList Selector Seq)) :
    (acceptedTexts (cfg.judge name oeName fs ss target TP FP) xs).flatten.flatten = vresultText name oeName fs ss (vaccepted cfg target TP FP xs) := by
  rw [vtexts]
  unfold vresultText
  induction vaccepted cfg target TP FP xs with
  | nil => rfl
  | cons l ls ih => simp only [List.map_cons, List.flatten_cons, List.flatten_append, ih, vparts_text, List.flatMap_cons]

theorem fold_vhandle (cfg : VLSDConfig) (target : Str × Str) (TP FP : Nat) (xs : List (VList Selector Seq)) (st r : VLState Seq)
    (h : xs.foldlM (cfg.handle target TP FP) st = .ok r) :
    r.calls = st.calls ++ xs ∧ r.file = st.file ++ vaccepted cfg target TP FP xs ∧ r.selected = st.selected + (vaccepted cfg target TP FP xs).length ∧
    r.selected + r.unselected = st.selected + st.unselected + xs.length := by
  induction xs generalizing st with
  | nil => rw [foldlM_nil'] at h; injection h with h; subst h; simp [vaccepted]
  | cons x xs ih =>
    rw [foldlM_cons'] at h
    unfold VLSDConfig.handle at h
    cases hm : cfg.measure (paramsFor x.tp x.fp TP FP cfg.extra) with
    | error e => rw [hm] at h; cases h
    | ok q =>
      rw [hm] at h
      simp only at h
      by_cases hq : q ≥ cfg.minQuality
      · rw [if_pos hq] at h
        obtain ⟨h1, h2, h3, h4⟩ := ih _ h
        have hv : vaccepted cfg target TP FP (x :: xs) = vlineOf target TP FP x q :: vaccepted cfg target TP FP xs := by
          simp only [vaccepted, List.filterMap_cons, hm]
          rw [if_pos hq]
        rw [hv]
        refine ⟨by rw [h1]; simp, by rw [h2]; simp [vlineOf], by rw [h3]; simp only [List.length_cons]; omega, by rw [h4]; simp only [List.length_cons]; omega⟩
      · rw [if_neg hq] at h
        obtain ⟨h1, h2, h3, h4⟩ := ih _ h
        have hv : vaccepted cfg target TP FP (x :: xs) = vaccepted cfg target TP FP xs := by
          simp only [vaccepted, List.filterMap_cons, hm]
          rw [if_neg hq]
        rw [hv]
        refine ⟨by rw [h1]; simp, h2, h3, by rw [h4]; simp only [List.length_cons]; omega⟩

/-! ### the trace does not depend on the measure -/

theorem emitRight_measure (I : VLImpl Seq) (cfg : VLSDConfig) (m : Params → Except PyErr Rat) (TP FP : Nat) (M : VMatrix Seq) (x : VList Selector Seq) (ys : List (VList Selector Seq)) :
    VLSDConfig.emitRight I { cfg with measure := m } TP FP M x ys = VLSDConfig.emitRight I cfg TP FP M x ys := by
  induction ys with
  | nil => rfl
  | cons y ys ih =>
    unfold VLSDConfig.emitRight
    rw [ih]
    rfl

theorem emitSearch_measure (I : VLImpl Seq) (cfg : VLSDConfig) (m : Params → Except PyErr Rat) (TP FP : Nat) (M : VMatrix Seq) (P : List (VList Selector Seq)) :
    VLSDConfig.emitSearch I { cfg with measure := m } TP FP M P = VLSDConfig.emitSearch I cfg TP FP M P := by
  induction hn : P.length using Nat.strong_induction_on generalizing P with
  | _ n ih =>
  cases P with
  | nil => unfold VLSDConfig.emitSearch; rfl
  | cons x rest =>
    have h1 := emitRight_measure I cfg m TP FP M x rest
    cases ho : (VLSDConfig.emitRight I cfg TP FP M x rest).out with
    | error e =>
      rw [VLSDConfig.emitSearch_error I cfg TP FP M x rest ho, VLSDConfig.emitSearch_error I { cfg with measure := m } TP FP M x rest (by rw [h1]; exact ho), h1]
    | ok V =>
      have hlen := VLSDConfig.emitRight_length ho
      have hb : (if V = [] then (⟨[], .ok ()⟩ : Trace (VList Selector Seq) Unit) else VLSDConfig.emitSearch I { cfg with measure := m } TP FP M (cfg.sortOther.sort V)) =
          if V = [] then ⟨[], .ok ()⟩ else VLSDConfig.emitSearch I cfg TP FP M (cfg.sortOther.sort V) := by
        by_cases hV : V = []
        · rw [if_pos hV, if_pos hV]
        · rw [if_neg hV, if_neg hV]
          refine ih _ ?_ _ rfl
          rw [VLSDConfig.sort_length, ← hn, List.length_cons]; omega
      rw [VLSDConfig.emitSearch_ok I cfg TP FP M x rest ho rfl, VLSDConfig.emitSearch_ok I { cfg with measure := m } TP FP M x rest (by rw [h1]; exact ho) hb, h1,
        ih _ (by rw [← hn]; simp) rest rfl]

theorem emitLevel2_measure (I : VLImpl Seq) (cfg : VLSDConfig) (m : Params → Except PyErr Rat) (TP FP : Nat) (M : VMatrix Seq) (P : List (VList Selector Seq)) :
    VLSDConfig.emitLevel2 I { cfg with measure := m } TP FP M P = VLSDConfig.emitLevel2 I cfg TP FP M P := by
  induction P with
  | nil => rfl
  | cons x rest ih =>
    unfold VLSDConfig.emitLevel2
    rw [ih]
    cases x.sels.getLast? with
    | none => rfl
    | some a =>
      simp only
      cases M.lookup a with
      | none => rfl
      | some row => simp only [emitSearch_measure]

theorem matrix_measure (I : VLImpl Seq) (cfg : VLSDConfig) (m : Params → Except PyErr Rat) (TP FP : Nat) (l : List (VList Selector Seq)) :
    VLSDConfig.matrix I { cfg with measure := m } TP FP l = VLSDConfig.matrix I cfg TP FP l := by
  induction l with
  | nil => rfl
  | cons x rest ih =>
    unfold VLSDConfig.matrix
    rw [ih]
    rfl

theorem emit_measure (I : VLImpl Seq) (cfg : VLSDConfig) (m : Params → Except PyErr Rat) (df : Frame) (target : Str × Str) (mask : List Bool) :
    VLSDConfig.emit I { cfg with measure := m } df target mask = VLSDConfig.emit I cfg df target mask := by
  unfold VLSDConfig.emit
  rw [show ({ cfg with measure := m } : VLSDConfig).s1 I df target.1 mask = cfg.s1 I df target.1 mask from rfl]
  simp only
  cases cfg.s1 I df target.1 mask (mask.count true) (df.nrows - mask.count true) with
  | error e => rfl
  | ok S1 => simp only [matrix_measure, emitLevel2_measure]

theorem vfold_zero (cfg : VLSDConfig) (target : Str × Str) (TP FP : Nat) (xs : List (VList Selector Seq)) (st : VLState Seq) :
    ∃ r, xs.foldlM (({ cfg with measure := fun _ => .ok 0 } : VLSDConfig).handle target TP FP) st = .ok r := by
  induction xs generalizing st with
  | nil => exact ⟨st, rfl⟩
  | cons x xs ih =>
    rw [foldlM_cons']
    have : ∃ s1, ({ cfg with measure := fun _ => .ok 0 } : VLSDConfig).handle target TP FP st x = .ok s1 := by
      unfold VLSDConfig.handle
      simp only
      split <;> exact ⟨_, rfl⟩
    obtain ⟨s1, h1⟩ := this
    rw [h1]
    exact ih s1

/-- nominal data whose target exists: what `fit` with the constant measure does -/
theorem fit_zero_trace (I : VLImpl Seq) (cfg : VLSDConfig) (df : Frame) (target : Str × Str) {mask : List Bool} (hn : df.nominal = true) (hm : targetMask df target = .ok mask) :
    (∀ e, (cfg.emit I df target mask).out = .error e ↔ ({ cfg with measure := fun _ => .ok 0 } : VLSDConfig).fit I newVLSD df target = .error e) ∧
    (∀ u, (cfg.emit I df target mask).out = .ok u → VDescriptions I cfg df target (cfg.emit I df target mask).items) ∧
    ∀ all, VDescriptions I cfg df target all → (cfg.emit I df target mask).out = .ok () ∧ (cfg.emit I df target mask).items = all := by
  have hf := VLSDConfig.fit_trace I { cfg with measure := fun _ => .ok 0 } newVLSD df target hn hm
  rw [emit_measure] at hf
  obtain ⟨r, hr⟩ := vfold_zero cfg target (mask.count true) (df.nrows - mask.count true) (cfg.emit I df target mask).items { (newVLSD : VLState Seq) with file := [] }
  have hc := (fold_vhandle _ _ _ _ _ _ _ hr).1
  unfold Trace.play at hf
  rw [hr] at hf
  simp only at hf
  cases ho : (cfg.emit I df target mask).out with
  | error e =>
    rw [ho] at hf
    refine ⟨fun e' => ?_, fun u hu => (by cases hu), fun all ⟨r', h1, _⟩ => ?_⟩
    · rw [hf]; simp [Except.map]
    · rw [hf] at h1; cases h1
  | ok u =>
    rw [ho] at hf
    refine ⟨fun e' => ?_, fun _ _ => ⟨r, hf, by rw [hc]; simp [newVLSD]⟩, fun all ⟨r', h1, h2⟩ => ⟨rfl, ?_⟩⟩
    · rw [hf]; simp [Except.map]
    · rw [hf] at h1
      simp only [Except.map, Except.ok.injEq] at h1
      rw [← h2, ← h1, hc]
      simp [newVLSD]

theorem totals_mask {df : Frame} {target : Str × Str} {mask : List Bool} (hm : targetMask df target = .ok mask) :
    Totals df target (mask.count true) (df.nrows - mask.count true) := by
  unfold targetMask Frame.col at hm
  cases hl : df.cols.lookup target.1 with
  | none => rw [hl] at hm; cases hm
  | some col =>
    rw [hl] at hm
    injection hm with hm
    refine ⟨col, hl, ?_, rfl⟩
    rw [← hm, List.count, List.countP_map]
    congr 1
    funext v
    simp

/-- nominal data whose target exists: the file is opened and the items of the trace are judged -/
theorem vevents_eq (I : VLImpl Seq) (cfg : VLSDConfig) (name oeName : Str) (fs : Rat → Str) (ss : Seq → Str) (df : Frame) (target : Str × Str) {mask : List Bool}
    (hn : df.nominal = true) (hm : targetMask df target = .ok mask) :
    cfg.events I name oeName fs ss df target = .file .openW ::
      judgedEvents (cfg.judge name oeName fs ss target (mask.count true) (df.nrows - mask.count true)) (cfg.emit I df target mask).fin (cfg.emit I df target mask).items := by
  unfold VLSDConfig.events
  simp only [hn, Bool.not_true, Bool.false_eq_true, if_false, hm]

/-- **C79.** VLSD: at every moment of `fit`, whatever has been flushed, the object and its file are as before or the file holds a first part of the lines of the accepted
descriptions among those handled so far, the last one possibly begun, and the counters count the descriptions handled. -/
theorem C79_vlsd_crash (I : VLImpl Seq) (cfg : VLSDConfig) (name oeName : Str) (fs : Rat → Str) (ss : Seq → Str) (df : Frame) (target : Str × Str)
    (all : List (VList Selector Seq)) (hall : VDescriptions I cfg df target all) (o : SDMapObj) (ho : o.out.handle = none) (sched : Nat → Nat) (j : Nat) :
    let o' := SDMapObj.run sched 0 o ((cfg.events I name oeName fs ss df target).take j)
    o' = o ∨ ∃ TP FP calls part D B, Totals df target TP FP ∧ calls <+: all ∧
      (∀ v ∈ calls, ∃ q, cfg.measure (paramsFor v.tp v.fp TP FP cfg.extra) = .ok q) ∧
      o'.selected = o.selected + (vaccepted cfg target TP FP calls).length ∧
      o'.selected + o'.unselected = o.selected + o.unselected + calls.length ∧
      D ++ B = vresultText name oeName fs ss (vaccepted cfg target TP FP calls) ++ part ∧
      (part = [] ∨ ∃ v q, all[calls.length]? = some v ∧ cfg.measure (paramsFor v.tp v.fp TP FP cfg.extra) = .ok q ∧ q ≥ cfg.minQuality ∧
        part <+: vlineText name oeName fs ss (vlineOf target TP FP v q)) ∧
      o'.out.disk = some D ∧
      (o'.out.handle = some (D.length, B) ∨ (o'.out.handle = none ∧ B = [] ∧ part = [] ∧ calls = all)) := by
  intro o'
  obtain ⟨r, hr1, hr2⟩ := hall
  have hn : df.nominal = true := by
    by_contra hn
    have hn' : df.nominal = false := by simpa using hn
    simp [VLSDConfig.fit, hn'] at hr1
  cases hm : targetMask df target with
  | error e => simp [VLSDConfig.fit, hn, hm] at hr1
  | ok mask =>
    obtain ⟨-, -, z3⟩ := fit_zero_trace I cfg df target hn hm
    obtain ⟨y1, y2⟩ := z3 all ⟨r, hr1, hr2⟩
    cases j with
    | zero => exact Or.inl rfl
    | succ j =>
      right
      have hev := vevents_eq I cfg name oeName fs ss df target hn hm
      rw [y2] at hev
      have hfin : (cfg.emit I df target mask).fin = [.file .close] := by unfold Trace.fin; rw [y1]
      rw [hfin] at hev
      have h1 : o' = SDMapObj.run sched 1 ⟨o.selected, o.unselected, shape [] [] []⟩ ((judgedEvents (cfg.judge name oeName fs ss target (mask.count true) (df.nrows - mask.count true)) [.file .close] all).take j) := by
        simp only [o', hev, List.take_succ_cons, SDMapObj.run, SDMapObj.step]
        rw [open_shape, ho]
        rfl
      obtain ⟨n, part, k1, k2, k3, k4, k5, k6⟩ := judged_crash (cfg.judge name oeName fs ss target (mask.count true) (df.nrows - mask.count true)) [.file .close] (Or.inl rfl) []
        sched all j 1 ⟨o.selected, o.unselected, shape [] [] []⟩ [] [] rfl
      rw [← h1] at k3 k4 k6
      rw [vtexts, List.length_map] at k3
      have hlen : (all.take n).length = n := by rw [List.length_take]; omega
      have hpart : part = [] ∨ ∃ v q, all[(all.take n).length]? = some v ∧ cfg.measure (paramsFor v.tp v.fp (mask.count true) ((df.nrows - mask.count true : Nat) : Rat) cfg.extra) = .ok q ∧ q ≥ cfg.minQuality ∧
          part <+: vlineText name oeName fs ss (vlineOf target (mask.count true) (df.nrows - mask.count true) v q) := by
        rcases k5 with k5 | ⟨v, ts, v1, v2, v3⟩
        · exact Or.inl k5
        · obtain ⟨q, q1, q2, q3⟩ := vjudge_some v2
          exact Or.inr ⟨v, q, by rw [hlen]; exact v1, q1, q2, q3 ▸ v3⟩
      rcases k6 with ⟨D, B, g1, g2⟩ | ⟨g1, g2, g3, g4⟩
      · refine ⟨_, _, all.take n, part, D, B, totals_mask hm, List.take_prefix _ _, fun v hv => vjudge_ok.1 (k2 v hv), k3, by rw [k4, hlen], ?_, hpart, ?_, Or.inl ?_⟩
        · rw [g2, vtexts_flat]; simp
        · rw [g1]; simp [shape]
        · rw [g1]; rfl
      · have hta : all.take n = all := by rw [g1, List.take_length]
        rw [hta] at hlen k2 k3 hpart
        refine ⟨_, _, all, part, vresultText name oeName fs ss (vaccepted cfg target (mask.count true) (df.nrows - mask.count true) all), [], totals_mask hm, List.prefix_rfl,
          fun v hv => vjudge_ok.1 (k2 v hv), k3, by rw [k4, hlen], by rw [g2], hpart, ?_, Or.inr ⟨?_, rfl, g2, rfl⟩⟩
        · rw [g4, vtexts_flat]; simp
        · rw [g4]

/-- the file of a run that returns: the lines of all accepted descriptions -/
theorem vfit_ok {I : VLImpl Seq} {cfg : VLSDConfig} {df : Frame} {target : Str × Str} {full : VLState Seq} (hfit : cfg.fit I newVLSD df target = .ok full) :
    ∃ mask, df.nominal = true ∧ targetMask df target = .ok mask ∧ (cfg.emit I df target mask).out = .ok () ∧
      full.file = vaccepted cfg target (mask.count true) (df.nrows - mask.count true) (cfg.emit I df target mask).items ∧
      full.selected = (vaccepted cfg target (mask.count true) (df.nrows - mask.count true) (cfg.emit I df target mask).items).length ∧
      full.selected + full.unselected = (cfg.emit I df target mask).items.length ∧ full.calls = (cfg.emit I df target mask).items ∧
      ∀ v ∈ (cfg.emit I df target mask).items, ∃ q, cfg.measure (paramsFor v.tp v.fp (mask.count true) ((df.nrows - mask.count true : Nat) : Rat) cfg.extra) = .ok q := by
  have hn : df.nominal = true := by
    by_contra hn
    have hn' : df.nominal = false := by simpa using hn
    simp [VLSDConfig.fit, hn'] at hfit
  cases hm : targetMask df target with
  | error e => simp [VLSDConfig.fit, hn, hm] at hfit
  | ok mask =>
    have hf := VLSDConfig.fit_trace I cfg newVLSD df target hn hm
    rw [hfit] at hf
    unfold Trace.play at hf
    cases hfold : (cfg.emit I df target mask).items.foldlM (cfg.handle target (mask.count true) (df.nrows - mask.count true)) { (newVLSD : VLState Seq) with file := [] } with
    | error e => rw [hfold] at hf; cases hf
    | ok r =>
      rw [hfold] at hf
      simp only at hf
      cases ho : (cfg.emit I df target mask).out with
      | error e => rw [ho] at hf; cases hf
      | ok u =>
        rw [ho] at hf
        simp only [Except.map, Except.ok.injEq] at hf
        subst hf
        obtain ⟨h1, h2, h3, h4⟩ := fold_vhandle _ _ _ _ _ _ _ hfold
        refine ⟨mask, hn, rfl, ho, by rw [h2]; simp, by rw [h3]; simp [newVLSD], by rw [h4]; simp [newVLSD], by rw [h1]; simp [newVLSD], ?_⟩
        intro v hv
        exact vjudge_ok.1 ((fold_judge (fun st x => vjudge_handle cfg [] [] (fun _ => []) (fun _ => []) target _ _ st x) _ _).1 _ hfold v hv)

/-- **C79.** VLSD: when the run would end well if it were not stopped, what is on the disk at any moment is the earlier file or a first part of the complete file. -/
theorem C79_vlsd_prefix (I : VLImpl Seq) (cfg : VLSDConfig) (name oeName : Str) (fs : Rat → Str) (ss : Seq → Str) (df : Frame) (target : Str × Str) (full : VLState Seq)
    (hfit : cfg.fit I newVLSD df target = .ok full) (o : SDMapObj) (ho : o.out.handle = none) (sched : Nat → Nat) (j : Nat) :
    let o' := SDMapObj.run sched 0 o ((cfg.events I name oeName fs ss df target).take j)
    o' = o ∨ ∃ D, o'.out.disk = some D ∧ D <+: vresultText name oeName fs ss full.file := by
  intro o'
  obtain ⟨mask, m1, m2, m3, m4, -, -, -, m8⟩ := vfit_ok hfit
  have hall := (fit_zero_trace I cfg df target m1 m2).2.1 () m3
  rcases C79_vlsd_crash I cfg name oeName fs ss df target _ hall o ho sched j with h | ⟨TP, FP, calls, part, D, B, h1, h2, h3, h4, h5, h6, h7, h8, h9⟩
  · exact Or.inl h
  · refine Or.inr ⟨D, h8, ?_⟩
    have hT : TP = mask.count true ∧ FP = df.nrows - mask.count true := by
      obtain ⟨c1, a1, a2, a3⟩ := h1
      obtain ⟨c2, b1, b2, b3⟩ := totals_mask m2
      rw [a1] at b1
      cases b1
      rw [← b2] at a2
      exact ⟨a2, by rw [a3, a2]⟩
    obtain ⟨rfl, rfl⟩ := hT
    obtain ⟨rest, hrest⟩ := h2
    rw [m4, ← hrest]
    have hsplit : ∀ a b : List (VList Selector Seq), vresultText name oeName fs ss (vaccepted cfg target (mask.count true) (df.nrows - mask.count true) (a ++ b)) =
        vresultText name oeName fs ss (vaccepted cfg target (mask.count true) (df.nrows - mask.count true) a) ++
        vresultText name oeName fs ss (vaccepted cfg target (mask.count true) (df.nrows - mask.count true) b) := by
      intro a b
      simp [vresultText, vaccepted, List.filterMap_append]
    rw [hsplit]
    have hD : D <+: D ++ B := List.prefix_append _ _
    rw [h6] at hD
    refine hD.trans ?_
    rw [List.prefix_append_right_inj]
    rcases h7 with rfl | ⟨v, q, v1, v2, v3, v4⟩
    · exact List.nil_prefix
    · rw [← hrest, List.getElem?_append_right (Nat.le_refl _), Nat.sub_self] at v1
      cases rest with
      | nil => cases v1
      | cons w rest =>
        simp only [List.getElem?_cons_zero, Option.some.injEq] at v1
        subst v1
        refine v4.trans ?_
        have : vaccepted cfg target (mask.count true) (df.nrows - mask.count true) (w :: rest) = vlineOf target (mask.count true) (df.nrows - mask.count true) w q ::
            vaccepted cfg target (mask.count true) (df.nrows - mask.count true) rest := by
          simp only [vaccepted, List.filterMap_cons, v2]
          rw [if_pos v3]
        rw [this]
        simp [vresultText]

/-- **C79.** VLSD: a run that returns always opens the file and leaves it closed with exactly its lines; only when an earlier run left its file open, what that one still had in its
buffer shows behind them, as far as it is longer. -/
theorem C79_vlsd_done (I : VLImpl Seq) (cfg : VLSDConfig) (name oeName : Str) (fs : Rat → Str) (ss : Seq → Str) (df : Frame) (target : Str × Str) (full : VLState Seq)
    (hfit : cfg.fit I newVLSD df target = .ok full) (o : SDMapObj) (sched : Nat → Nat) :
    let o' := SDMapObj.run sched 0 o (cfg.events I name oeName fs ss df target)
    let N := vresultText name oeName fs ss full.file
    o'.selected = o.selected + full.selected ∧ o'.unselected = o.unselected + full.unselected ∧ o'.out.handle = none ∧
    (o.out.handle = none → o'.out.disk = some N) ∧
    ∀ p b, o.out.handle = some (p, b) → o'.out.disk = some (N ++ (if b = [] then [] else (List.replicate p '\x00' ++ b).drop N.length)) := by
  intro o' N
  obtain ⟨mask, m1, m2, m3, m4, m5, m6, -, m8⟩ := vfit_ok hfit
  have hfin : (cfg.emit I df target mask).fin = [.file .close] := by unfold Trace.fin; rw [m3]
  have h1 : o' = SDMapObj.run sched 1 ⟨o.selected, o.unselected, shape (stale o.out.handle) [] []⟩
      (judgedEvents (cfg.judge name oeName fs ss target (mask.count true) (df.nrows - mask.count true)) [.file .close] (cfg.emit I df target mask).items) := by
    simp only [o', vevents_eq I cfg name oeName fs ss df target m1 m2, SDMapObj.run, SDMapObj.step, hfin]
    rw [open_shape]
  rcases judged_done (cfg.judge name oeName fs ss target (mask.count true) (df.nrows - mask.count true)) [.file .close] (Or.inl rfl) (stale o.out.handle)
    sched (cfg.emit I df target mask).items 1 ⟨o.selected, o.unselected, shape (stale o.out.handle) [] []⟩ [] [] rfl with ⟨n, x, e, k1, k2, -⟩ | ⟨k1, k2, k3, k4⟩
  · obtain ⟨q, hq⟩ := m8 x (List.mem_of_getElem? k1)
    rw [vjudge_error, hq] at k2
    cases k2
  · rw [← h1] at k2 k3 k4
    rw [vtexts, List.length_map] at k2
    rcases k4 with ⟨e, D, B, k5, -⟩ | ⟨-, k5⟩
    · cases k5
    · rw [vtexts_flat, ← m4] at k5
      simp only [List.nil_append] at k5
      refine ⟨by rw [k2, m5], ?_, by rw [k5], ?_, ?_⟩
      · simp only at k2 k3
        rw [← m5] at k2
        omega
      · intro h0
        rw [k5, h0]
        simp [stale, N]
      · intro p b hpb
        rw [k5, hpb]
        simp only [stale, N]
        by_cases hb : b = []
        · rw [if_pos hb, if_pos hb]; simp
        · rw [if_neg hb, if_neg hb]

/-- **C79.** VLSD: a run that raises does so before anything happens (an attribute is not nominal), or it leaves the file open with exactly the lines handled before, part of them
still in the buffer: the earlier file is lost. Causes: the target attribute does not exist (then there is no line), the quality measure raises on the next description, or
the search does (that is, the optimistic estimate). -/
theorem C79_vlsd_raise (I : VLImpl Seq) (cfg : VLSDConfig) (name oeName : Str) (fs : Rat → Str) (ss : Seq → Str) (df : Frame) (target : Str × Str) (e : PyErr)
    (hfit : cfg.fit I newVLSD df target = .error e) (o : SDMapObj) (ho : o.out.handle = none) (sched : Nat → Nat) :
    let o' := SDMapObj.run sched 0 o (cfg.events I name oeName fs ss df target)
    (df.nominal = false ∧ e = .datasetAttributeType ∧ o' = o) ∨
    (df.nominal = true ∧ df.cols.lookup target.1 = none ∧ e = .keyError ∧ o' = { o with out := ⟨some [], some (0, [])⟩ }) ∨
    (df.nominal = true ∧ ∃ TP FP calls D B, Totals df target TP FP ∧
      (∀ v ∈ calls, ∃ q, cfg.measure (paramsFor v.tp v.fp TP FP cfg.extra) = .ok q) ∧
      o'.selected = o.selected + (vaccepted cfg target TP FP calls).length ∧ o'.selected + o'.unselected = o.selected + o.unselected + calls.length ∧
      D ++ B = vresultText name oeName fs ss (vaccepted cfg target TP FP calls) ∧ o'.out = ⟨some D, some (D.length, B)⟩ ∧
      ((∃ v, cfg.measure (paramsFor v.tp v.fp TP FP cfg.extra) = .error e ∧ ∀ all, VDescriptions I cfg df target all → calls ++ [v] <+: all) ∨
       ({ cfg with measure := fun _ => .ok 0 } : VLSDConfig).fit I newVLSD df target = .error e)) := by
  intro o'
  by_cases hn : df.nominal = true
  swap
  · left
    have hn' : df.nominal = false := by simpa using hn
    refine ⟨hn', ?_, ?_⟩
    · simp only [VLSDConfig.fit, hn', Bool.not_false, if_true, Except.error.injEq] at hfit
      exact hfit.symm
    · simp [o', VLSDConfig.events, hn', SDMapObj.run, SDMapObj.step]
  right
  cases hm : targetMask df target with
  | error e' =>
    left
    simp only [VLSDConfig.fit, hn, Bool.not_true, Bool.false_eq_true, if_false, hm, Except.error.injEq] at hfit
    subst hfit
    have hl : df.cols.lookup target.1 = none ∧ e' = .keyError := by
      unfold targetMask Frame.col at hm
      cases hl : df.cols.lookup target.1 with
      | none => rw [hl] at hm; cases hm; exact ⟨rfl, rfl⟩
      | some c => rw [hl] at hm; cases hm
    refine ⟨hn, hl.1, hl.2, ?_⟩
    simp only [o', VLSDConfig.events, hn, Bool.not_true, Bool.false_eq_true, if_false, hm, SDMapObj.run, SDMapObj.step]
    rw [open_shape, ho]
    rfl
  | ok mask =>
    right
    refine ⟨hn, mask.count true, df.nrows - mask.count true, ?_⟩
    have hf := VLSDConfig.fit_trace I cfg newVLSD df target hn hm
    rw [hfit] at hf
    obtain ⟨t1, t2, t3⟩ := fit_zero_trace I cfg df target hn hm
    have h1 : o' = SDMapObj.run sched 1 ⟨o.selected, o.unselected, shape [] [] []⟩
        (judgedEvents (cfg.judge name oeName fs ss target (mask.count true) (df.nrows - mask.count true)) (cfg.emit I df target mask).fin (cfg.emit I df target mask).items) := by
      simp only [o', vevents_eq I cfg name oeName fs ss df target hn hm, SDMapObj.run, SDMapObj.step]
      rw [open_shape, ho]
      rfl
    have hfj := fold_judge (fun st x => vjudge_handle cfg name oeName fs ss target (mask.count true) (df.nrows - mask.count true) st x) (cfg.emit I df target mask).items
      { (newVLSD : VLState Seq) with file := [] }
    rcases judged_done (cfg.judge name oeName fs ss target (mask.count true) (df.nrows - mask.count true)) _ (cfg.emit I df target mask).isFin []
      sched (cfg.emit I df target mask).items 1 ⟨o.selected, o.unselected, shape [] [] []⟩ [] [] rfl with ⟨n, x, e', k1, k2, k3, k4, k5, D, B, k6, k7⟩ | ⟨k1, k2, k3, k4⟩
    · rw [← h1] at k4 k5 k6
      rw [vtexts, List.length_map] at k4
      have hlt : n < (cfg.emit I df target mask).items.length := (List.getElem?_eq_some_iff.1 k1).1
      have hlen : ((cfg.emit I df target mask).items.take n).length = n := by rw [List.length_take]; omega
      refine ⟨(cfg.emit I df target mask).items.take n, D, B, totals_mask hm, fun v hv => vjudge_ok.1 (k3 v hv), k4, by rw [k5, hlen], by rw [k7, vtexts_flat]; simp, by rw [k6]; simp [shape], Or.inl ⟨x, ?_, ?_⟩⟩
      · unfold Trace.play at hf
        cases hfold : (cfg.emit I df target mask).items.foldlM (cfg.handle target (mask.count true) (df.nrows - mask.count true)) { (newVLSD : VLState Seq) with file := [] } with
        | ok r =>
          obtain ⟨r', hr'⟩ := hfj.1 _ hfold x (List.mem_of_getElem? k1)
          rw [k2] at hr'
          cases hr'
        | error e2 =>
          rw [hfold] at hf
          cases hf
          obtain ⟨m, y, g1, g2, g3⟩ := hfj.2 _ hfold
          obtain ⟨-, -, he⟩ := first_error k1 k2 k3 g1 g2 g3
          rw [← he]
          exact vjudge_error.1 k2
      · intro all hall
        obtain ⟨-, y2⟩ := t3 all hall
        rw [← y2]
        have : (cfg.emit I df target mask).items.take n ++ [x] = (cfg.emit I df target mask).items.take (n + 1) := by
          rw [List.take_add_one, k1]; rfl
        rw [this]
        exact List.take_prefix _ _
    · rw [← h1] at k2 k3 k4
      rw [vtexts, List.length_map] at k2
      have hfold : ∃ r, (cfg.emit I df target mask).items.foldlM (cfg.handle target (mask.count true) (df.nrows - mask.count true)) { (newVLSD : VLState Seq) with file := [] } = .ok r := by
        cases hfold : (cfg.emit I df target mask).items.foldlM (cfg.handle target (mask.count true) (df.nrows - mask.count true)) { (newVLSD : VLState Seq) with file := [] } with
        | ok r => exact ⟨r, rfl⟩
        | error e2 =>
          obtain ⟨m, y, g1, g2, g3⟩ := hfj.2 _ hfold
          obtain ⟨r', hr'⟩ := k1 y (List.mem_of_getElem? g1)
          rw [g2] at hr'
          cases hr'
      obtain ⟨r, hr⟩ := hfold
      unfold Trace.play at hf
      rw [hr] at hf
      simp only at hf
      cases ho2 : (cfg.emit I df target mask).out with
      | ok u => rw [ho2] at hf; cases hf
      | error e2 =>
        rw [ho2] at hf
        cases hf
        rcases k4 with ⟨e3, D, B, -, k6, k7⟩ | ⟨k5, -⟩
        · exact ⟨_, D, B, totals_mask hm, fun v hv => vjudge_ok.1 (k1 v hv), k2, k3, by rw [k7, vtexts_flat]; simp, by rw [k6]; simp [shape], Or.inr ((t1 e).1 ho2)⟩
        · unfold Trace.fin at k5
          rw [ho2] at k5
          simp at k5

end VLSD

end Verif

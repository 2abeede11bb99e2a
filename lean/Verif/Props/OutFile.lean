import Verif.Lemmas.OutFile
import Verif.Props.Refit
import Verif.Props.ListFile
/-! Property C73: the result file at every moment of a run, and after runs that were interrupted or raised. -/
namespace Verif
open Spec OutFile

namespace Spec

/-- the line of a result file for a subgroup -/
def lineText (name : Str) (floatStr : Rat → Str) (l : ResultLine) : Str :=
  l.subgroup.str ++ c!" ; Quality Measure " ++ name ++ c!" = " ++ floatStr l.quality ++ c!" ; tp = " ++ natStr l.tp ++ c!" ; fp = " ++ natStr l.fp ++
    c!" ; TP = " ++ natStr l.TP ++ c!" ; FP = " ++ natStr l.FP ++ c!"\n"

/-- a result file -/
def resultText (name : Str) (floatStr : Rat → Str) (ls : List ResultLine) : Str := ls.flatMap (lineText name floatStr)

/-- the lines for some descriptions: one for each description whose quality reaches the threshold -/
def accepted (measure : Params → Except PyErr Rat) (minQuality : Rat) (extra : Params) (target : Str × Str) (TP FP : Nat)
    (calls : List (Pattern × Cnt)) : List ResultLine :=
  calls.filterMap (fun x => match measure (paramsFor x.2.1 x.2.2 TP FP extra) with
    | .ok q => if minQuality ≤ q then some ⟨⟨x.1, ⟨target.1, .equal, .str target.2⟩⟩, q, x.2.1, x.2.2, TP, FP⟩ else none
    | .error _ => none)

/-- the numbers of rows with and without the target -/
def Totals (df : Frame) (target : Str × Str) (TP FP : Nat) : Prop :=
  ∃ col, df.cols.lookup target.1 = some col ∧ TP = col.countP (fun v => v.eq (.str target.2)) ∧ FP = df.nrows - TP

/-- all the descriptions that `fit` goes through, in their order: they do not depend on the measure (C24 says which they are) -/
def Descriptions (cfg : SDMapConfig) (df : Frame) (target : Str × Str) (all : List (Pattern × Cnt)) : Prop :=
  ∃ r, ({ cfg with measure := fun _ => .ok 0 } : SDMapConfig).fit newSDMap df target = .ok r ∧ r.calls = all

end Spec

theorem parts_text (name : Str) (fs : Rat → Str) (l : ResultLine) : (l.parts name fs).flatten = lineText name fs l := by
  simp [ResultLine.parts, lineText]

theorem resultText_append (name : Str) (fs : Rat → Str) (a b : List ResultLine) :
    resultText name fs (a ++ b) = resultText name fs a ++ resultText name fs b := by simp [resultText]

/-- the line that `_handle_individual_result` writes for a description -/
def theLine (target : Str × Str) (TP FP : Nat) (x : Pattern × Cnt) (q : Rat) : ResultLine :=
  ⟨⟨x.1, ⟨target.1, .equal, .str target.2⟩⟩, q, x.2.1, x.2.2, TP, FP⟩


/-- an object and its file in the middle of a run: `st` is what has been handled, `part` the beginning of a line -/
structure Mid (name : Str) (fs : Rat → Str) (S : Str) (a b : Nat) (o : SDMapObj) (st : SDMapState) (part : Str) : Prop where
  sel : o.selected = a + st.selected
  unsel : o.unselected = b + st.unselected
  out : ∃ D B, o.out = shape S D B ∧ D ++ B = resultText name fs st.file ++ part

/-- the beginning of the line of a description -/
def PartOf (cfg : SDMapConfig) (name : Str) (fs : Rat → Str) (target : Str × Str) (TP FP : Nat) (x : Option (Pattern × Cnt)) (part : Str) : Prop :=
  part = [] ∨ ∃ y q, x = some y ∧ cfg.measure (paramsFor y.2.1 y.2.2 TP FP cfg.extra) = .ok q ∧ q ≥ cfg.minQuality ∧
    part <+: lineText name fs (theLine target TP FP y q)

theorem take_writes (ts : List Str) (j : Nat) (tl : List SDMapEvent) :
    (ts.map (fun t => SDMapEvent.file (.write t)) ++ tl).take j =
      (ts.take j).map (fun t => SDMapEvent.file (.write t)) ++ tl.take (j - ts.length) := by
  rw [List.take_append, List.map_take, List.length_map]

theorem flatten_take_prefix (ts : List Str) (j : Nat) : (ts.take j).flatten <+: ts.flatten := by
  conv => rhs; rw [← List.take_append_drop j ts, List.flatten_append]
  exact List.prefix_append _ _

/-- any moment of the handling of some descriptions -/
theorem result_crash (cfg : SDMapConfig) (name : Str) (fs : Rat → Str) (target : Str × Str) (TP FP : Nat) (S : Str) (a b : Nat) (sched : Nat → Nat)
    (rs : List (Pattern × Cnt)) (j i : Nat) (o : SDMapObj) (st : SDMapState) (h : Mid name fs S a b o st []) :
    ∃ n r part, n ≤ rs.length ∧ (rs.take n).foldlM (cfg.handle target TP FP) st = .ok r ∧ PartOf cfg name fs target TP FP rs[n]? part ∧
      (Mid name fs S a b (SDMapObj.run sched i o ((cfg.resultEvents name fs target TP FP rs).take j)) r part ∨
        (n = rs.length ∧ part = [] ∧
          SDMapObj.run sched i o ((cfg.resultEvents name fs target TP FP rs).take j) =
            ⟨a + r.selected, b + r.unselected, ⟨some (resultText name fs r.file ++ S.drop (resultText name fs r.file).length), none⟩⟩)) := by
  induction rs generalizing j i o st with
  | nil =>
    cases j with
    | zero => exact ⟨0, st, [], Nat.le_refl _, rfl, Or.inl rfl, Or.inl h⟩
    | succ j =>
      refine ⟨0, st, [], Nat.le_refl _, rfl, Or.inl rfl, Or.inr ⟨rfl, rfl, ?_⟩⟩
      obtain ⟨D, B, h1, h2⟩ := h.out
      rw [List.append_nil] at h2
      simp only [SDMapConfig.resultEvents, List.take_succ_cons, List.take_nil, SDMapObj.run, SDMapObj.step]
      rw [h.sel, h.unsel, h1, close_shape, h2]
  | cons x rs ih =>
    unfold SDMapConfig.resultEvents
    cases hm : cfg.measure (paramsFor x.2.1 x.2.2 TP FP cfg.extra) with
    | error e =>
      refine ⟨0, st, [], Nat.zero_le _, rfl, Or.inl rfl, Or.inl ?_⟩
      cases j with
      | zero => exact h
      | succ j => simpa only [List.take_succ_cons, List.take_nil, SDMapObj.run, SDMapObj.step] using h
    | ok q =>
      simp only
      by_cases hq : q ≥ cfg.minQuality
      · rw [if_pos hq]
        set l := theLine target TP FP x q with hl
        have hparts : (⟨⟨x.1, ⟨target.1, .equal, .str target.2⟩⟩, q, x.2.1, x.2.2, TP, FP⟩ : ResultLine) = l := rfl
        rw [hparts, take_writes, SDMapObj.run_append]
        obtain ⟨D, B, h1, h2⟩ := h.out
        obtain ⟨D', B', e1, e2, e3⟩ := SDMapObj.run_writes sched ((l.parts name fs).take j) i o S D B h1
        rw [e3]
        rw [h2, List.append_nil] at e1
        by_cases hj : j ≤ (l.parts name fs).length
        · have : j - (l.parts name fs).length = 0 := by omega
          rw [this, List.take_zero]
          refine ⟨0, st, ((l.parts name fs).take j).flatten, Nat.zero_le _, rfl, Or.inr ⟨x, q, rfl, hm, hq, ?_⟩, Or.inl ⟨h.sel, h.unsel, D', B', rfl, e1⟩⟩
          rw [← hl, ← parts_text]
          exact flatten_take_prefix _ _
        · obtain ⟨j', hj'⟩ : ∃ j', j - (l.parts name fs).length = j' + 1 := ⟨j - (l.parts name fs).length - 1, by omega⟩
          rw [hj', List.take_succ_cons]
          have ht : (l.parts name fs).take j = l.parts name fs := List.take_of_length_le (by omega)
          rw [ht, parts_text] at e1
          have hstep : cfg.handle target TP FP st x = .ok { st with selected := st.selected + 1, file := st.file ++ [l], calls := st.calls ++ [x] } := by
            unfold SDMapConfig.handle
            rw [hm]
            simp only [if_pos hq]
            rfl
          obtain ⟨n, r, part, g1, g2, g3, g4⟩ := ih j' (i + ((l.parts name fs).take j |>.map (fun t => SDMapEvent.file (.write t))).length + 1)
            ⟨o.selected + 1, o.unselected, shape S D' B'⟩ { st with selected := st.selected + 1, file := st.file ++ [l], calls := st.calls ++ [x] }
            ⟨by simp only [h.sel]; omega, h.unsel, D', B', rfl, by rw [e1, resultText_append]; simp [resultText]⟩
          refine ⟨n + 1, r, part, by simp only [List.length_cons]; omega, ?_, by simpa using g3, ?_⟩
          · rw [List.take_succ_cons, List.foldlM_cons, hstep]
            exact g2
          · rcases g4 with g4 | ⟨g4, g5, g6⟩
            · exact Or.inl g4
            · exact Or.inr ⟨by simp [g4], g5, g6⟩
      · rw [if_neg hq]
        cases j with
        | zero => exact ⟨0, st, [], Nat.zero_le _, rfl, Or.inl rfl, Or.inl h⟩
        | succ j =>
          rw [List.take_succ_cons]
          have hstep : cfg.handle target TP FP st x = .ok { st with unselected := st.unselected + 1, calls := st.calls ++ [x] } := by
            unfold SDMapConfig.handle
            rw [hm]
            simp only [if_neg hq]
          obtain ⟨n, r, part, g1, g2, g3, g4⟩ := ih j (i + 1)
            ⟨o.selected, o.unselected + 1, o.out⟩ { st with unselected := st.unselected + 1, calls := st.calls ++ [x] }
            ⟨h.sel, by simp only [h.unsel]; omega, h.out⟩
          refine ⟨n + 1, r, part, by simp only [List.length_cons]; omega, ?_, by simpa using g3, ?_⟩
          · rw [List.take_succ_cons, List.foldlM_cons, hstep]
            exact g2
          · rcases g4 with g4 | ⟨g4, g5, g6⟩
            · exact Or.inl g4
            · exact Or.inr ⟨by simp [g4], g5, g6⟩

/-- the end of the handling of some descriptions -/
theorem result_done (cfg : SDMapConfig) (name : Str) (fs : Rat → Str) (target : Str × Str) (TP FP : Nat) (S : Str) (a b : Nat) (sched : Nat → Nat)
    (rs : List (Pattern × Cnt)) (i : Nat) (o : SDMapObj) (st : SDMapState) (h : Mid name fs S a b o st []) :
    (∃ r, rs.foldlM (cfg.handle target TP FP) st = .ok r ∧
        SDMapObj.run sched i o (cfg.resultEvents name fs target TP FP rs) =
          ⟨a + r.selected, b + r.unselected, ⟨some (resultText name fs r.file ++ S.drop (resultText name fs r.file).length), none⟩⟩) ∨
    (∃ e n x r, rs[n]? = some x ∧ cfg.measure (paramsFor x.2.1 x.2.2 TP FP cfg.extra) = .error e ∧ rs.foldlM (cfg.handle target TP FP) st = .error e ∧
        (rs.take n).foldlM (cfg.handle target TP FP) st = .ok r ∧
        Mid name fs S a b (SDMapObj.run sched i o (cfg.resultEvents name fs target TP FP rs)) r []) := by
  induction rs generalizing i o st with
  | nil =>
    refine Or.inl ⟨st, rfl, ?_⟩
    obtain ⟨D, B, h1, h2⟩ := h.out
    rw [List.append_nil] at h2
    simp only [SDMapConfig.resultEvents, SDMapObj.run, SDMapObj.step]
    rw [h.sel, h.unsel, h1, close_shape, h2]
  | cons x rs ih =>
    unfold SDMapConfig.resultEvents
    cases hm : cfg.measure (paramsFor x.2.1 x.2.2 TP FP cfg.extra) with
    | error e =>
      refine Or.inr ⟨e, 0, x, st, rfl, hm, ?_, rfl, h⟩
      rw [List.foldlM_cons]
      unfold SDMapConfig.handle
      rw [hm]
      rfl
    | ok q =>
      simp only
      by_cases hq : q ≥ cfg.minQuality
      · rw [if_pos hq]
        set l := theLine target TP FP x q with hl
        have hparts : (⟨⟨x.1, ⟨target.1, .equal, .str target.2⟩⟩, q, x.2.1, x.2.2, TP, FP⟩ : ResultLine) = l := rfl
        rw [hparts, SDMapObj.run_append]
        obtain ⟨D, B, h1, h2⟩ := h.out
        obtain ⟨D', B', e1, e2, e3⟩ := SDMapObj.run_writes sched (l.parts name fs) i o S D B h1
        rw [e3]
        rw [h2, List.append_nil, parts_text] at e1
        have hstep : cfg.handle target TP FP st x = .ok { st with selected := st.selected + 1, file := st.file ++ [l], calls := st.calls ++ [x] } := by
          unfold SDMapConfig.handle
          rw [hm]
          simp only [if_pos hq]
          rfl
        rcases ih (i + ((l.parts name fs).map (fun t => SDMapEvent.file (.write t))).length + 1)
          ⟨o.selected + 1, o.unselected, shape S D' B'⟩ { st with selected := st.selected + 1, file := st.file ++ [l], calls := st.calls ++ [x] }
          ⟨by simp only [h.sel]; omega, h.unsel, D', B', rfl, by rw [e1, resultText_append]; simp [resultText]⟩ with ⟨r, g1, g2⟩ | ⟨e, n, y, r, g1, g2, g3, g4, g5⟩
        · exact Or.inl ⟨r, by rw [List.foldlM_cons, hstep]; exact g1, g2⟩
        · exact Or.inr ⟨e, n + 1, y, r, by simpa using g1, g2, by rw [List.foldlM_cons, hstep]; exact g3,
            by rw [List.take_succ_cons, List.foldlM_cons, hstep]; exact g4, g5⟩
      · rw [if_neg hq]
        have hstep : cfg.handle target TP FP st x = .ok { st with unselected := st.unselected + 1, calls := st.calls ++ [x] } := by
          unfold SDMapConfig.handle
          rw [hm]
          simp only [if_neg hq]
        rcases ih (i + 1) ⟨o.selected, o.unselected + 1, o.out⟩ { st with unselected := st.unselected + 1, calls := st.calls ++ [x] }
          ⟨h.sel, by simp only [h.unsel]; omega, h.out⟩ with ⟨r, g1, g2⟩ | ⟨e, n, y, r, g1, g2, g3, g4, g5⟩
        · exact Or.inl ⟨r, by rw [List.foldlM_cons, hstep]; exact g1, g2⟩
        · exact Or.inr ⟨e, n + 1, y, r, by simpa using g1, g2, by rw [List.foldlM_cons, hstep]; exact g3,
            by rw [List.take_succ_cons, List.foldlM_cons, hstep]; exact g4, g5⟩

theorem fold_handle_accepted (cfg : SDMapConfig) (target : Str × Str) (TP FP : Nat) (xs : List (Pattern × Cnt)) (st r : SDMapState)
    (h : xs.foldlM (cfg.handle target TP FP) st = .ok r) :
    r.calls = st.calls ++ xs ∧ r.file = st.file ++ accepted cfg.measure cfg.minQuality cfg.extra target TP FP xs ∧
    r.selected = st.selected + (accepted cfg.measure cfg.minQuality cfg.extra target TP FP xs).length ∧
    r.selected + r.unselected = st.selected + st.unselected + xs.length ∧
    ∀ x ∈ xs, ∃ q, cfg.measure (paramsFor x.2.1 x.2.2 TP FP cfg.extra) = .ok q := by
  induction xs generalizing st with
  | nil =>
    rw [List.foldlM_nil] at h
    injection h with h
    subst h
    simp [accepted]
  | cons x xs ih =>
    rw [List.foldlM_cons] at h
    cases hh : cfg.handle target TP FP st x with
    | error e => rw [hh] at h; cases h
    | ok s1 =>
      rw [hh] at h
      obtain ⟨i1, i2, i3, i4, i5⟩ := ih s1 h
      unfold SDMapConfig.handle at hh
      cases hm : cfg.measure (paramsFor x.2.1 x.2.2 TP FP cfg.extra) with
      | error e => rw [hm] at hh; cases hh
      | ok q =>
        rw [hm] at hh
        simp only at hh
        have hacc : accepted cfg.measure cfg.minQuality cfg.extra target TP FP (x :: xs) =
            (if cfg.minQuality ≤ q then [theLine target TP FP x q] else []) ++ accepted cfg.measure cfg.minQuality cfg.extra target TP FP xs := by
          unfold accepted
          rw [List.filterMap_cons, hm]
          simp only
          by_cases hq : cfg.minQuality ≤ q
          · simp only [if_pos hq]; rfl
          · simp only [if_neg hq]; rfl
        rw [hacc]
        have i5' : ∀ y ∈ x :: xs, ∃ q, cfg.measure (paramsFor y.2.1 y.2.2 TP FP cfg.extra) = .ok q := by
          intro y hy
          rcases List.mem_cons.mp hy with rfl | hy
          · exact ⟨q, hm⟩
          · exact i5 y hy
        by_cases hq : q ≥ cfg.minQuality
        · rw [if_pos hq] at hh
          injection hh with hh
          subst hh
          rw [if_pos hq]
          refine ⟨by rw [i1]; simp, by rw [i2]; simp [theLine], by rw [i3]; simp; omega, ?_, i5'⟩
          simp only [List.length_cons] at i4 ⊢
          omega
        · rw [if_neg hq] at hh
          injection hh with hh
          subst hh
          rw [if_neg hq]
          refine ⟨by rw [i1]; simp, by rw [i2]; simp, by rw [i3]; simp, ?_, i5'⟩
          simp only [List.length_cons] at i4 ⊢
          omega

theorem fold_zero (cfg : SDMapConfig) (target : Str × Str) (TP FP : Nat) (xs : List (Pattern × Cnt)) (st : SDMapState) :
    ∃ r, xs.foldlM (({ cfg with measure := fun _ => .ok 0 } : SDMapConfig).handle target TP FP) st = .ok r := by
  induction xs generalizing st with
  | nil => exact ⟨st, rfl⟩
  | cons x xs ih =>
    rw [List.foldlM_cons]
    have : ∃ s1, ({ cfg with measure := fun _ => .ok 0 } : SDMapConfig).handle target TP FP st x = .ok s1 := by
      unfold SDMapConfig.handle
      simp only
      split <;> exact ⟨_, rfl⟩
    obtain ⟨s1, h1⟩ := this
    rw [h1]
    exact ih s1

theorem descriptions_of (cfg : SDMapConfig) (df : Frame) (target : Str × Str) {rs TP FP}
    (h : nominalResults FPTree.sorted cfg.th df target = .ok (some rs, TP, FP)) :
    Descriptions cfg df target (rs.map (fun r => (Pattern.new r.1, r.2))) := by
  obtain ⟨r, hr⟩ := fold_zero cfg target TP FP (rs.map (fun r => (Pattern.new r.1, r.2))) { newSDMap with file := [] }
  refine ⟨r, ?_, ?_⟩
  · unfold SDMapConfig.fit
    simp only
    rw [h]
    exact hr
  · rw [(fold_handle_accepted _ _ _ _ _ _ _ hr).1]
    simp [newSDMap]

theorem totals_of {df : Frame} {target : Str × Str} {order th rs TP FP} (h : nominalResults order th df target = .ok (rs, TP, FP)) :
    Totals df target TP FP := by
  unfold nominalResults at h
  split at h
  · cases h
  · cases hm : targetMask df target with
    | error e => rw [hm] at h; cases h
    | ok mask =>
      rw [hm] at h
      simp only at h
      have hTP : TP = mask.count true ∧ FP = df.nrows - mask.count true := by
        split at h <;> (injection h with h; simp only [Prod.mk.injEq] at h; exact ⟨h.2.1.symm, h.2.2.symm⟩)
      unfold targetMask Frame.col at hm
      cases hl : df.cols.lookup target.1 with
      | none => rw [hl] at hm; cases hm
      | some col =>
        rw [hl] at hm
        injection hm with hm
        refine ⟨col, hl, ?_, by rw [hTP.2, hTP.1]⟩
        rw [hTP.1, ← hm, List.count, List.countP_map]
        congr 1
        funext v
        simp

/-- **C73.** A run of SDMap stopped at any moment (an interruption, an exception, the death of the process), whatever part of the buffer Python has handed over by
then. Either nothing has happened yet, or some first descriptions `calls` have been handled: the counters have grown by the numbers of accepted and of rejected ones
among them, and the text written since the file was emptied is the lines of the accepted ones in their order, followed by the beginning `part` of at most one more
line; the disk has some first part `D` of this text, the rest `B` is in the buffer (and is lost if the process dies). When the file has been closed, all
the descriptions have been handled and everything is on the disk. -/
theorem C73_crash (cfg : SDMapConfig) (name : Str) (fs : Rat → Str) (df : Frame) (target : Str × Str) (o : SDMapObj) (ho : o.out.handle = none)
    (sched : Nat → Nat) (j : Nat) :
    let o' := SDMapObj.run sched 0 o ((cfg.events name fs df target).take j)
    o' = o ∨ ∃ TP FP all calls part D B, Totals df target TP FP ∧ Descriptions cfg df target all ∧ calls <+: all ∧
      (∀ x ∈ calls, ∃ q, cfg.measure (paramsFor x.2.1 x.2.2 TP FP cfg.extra) = .ok q) ∧
      o'.selected = o.selected + (accepted cfg.measure cfg.minQuality cfg.extra target TP FP calls).length ∧
      o'.selected + o'.unselected = o.selected + o.unselected + calls.length ∧
      D ++ B = resultText name fs (accepted cfg.measure cfg.minQuality cfg.extra target TP FP calls) ++ part ∧
      (part = [] ∨ ∃ x q, all[calls.length]? = some x ∧ cfg.measure (paramsFor x.2.1 x.2.2 TP FP cfg.extra) = .ok q ∧ q ≥ cfg.minQuality ∧
        part <+: lineText name fs ⟨⟨x.1, ⟨target.1, .equal, .str target.2⟩⟩, q, x.2.1, x.2.2, TP, FP⟩) ∧
      o'.out.disk = some D ∧
      (o'.out.handle = some (D.length, B) ∨ (o'.out.handle = none ∧ B = [] ∧ part = [] ∧ calls = all)) := by
  intro o'
  cases j with
  | zero => exact Or.inl rfl
  | succ j =>
    cases hN : nominalResults FPTree.sorted cfg.th df target with
    | error e =>
      left
      simp only [o', SDMapConfig.events, hN, List.take_succ_cons, List.take_nil, SDMapObj.run, SDMapObj.step]
    | ok v =>
      obtain ⟨rs?, TP, FP⟩ := v
      cases rs? with
      | none =>
        left
        simp only [o', SDMapConfig.events, hN, List.take_nil, SDMapObj.run]
      | some rs =>
        right
        have hd := descriptions_of cfg df target hN
        have ht := totals_of hN
        set all := rs.map (fun r => (Pattern.new r.1, r.2)) with hall
        have hMid : Mid name fs [] o.selected o.unselected (o.step (sched 0) (.file .openW)) newSDMap [] := by
          refine ⟨rfl, rfl, [], [], ?_, rfl⟩
          show o.out.step (sched 0) .openW = _
          rw [open_shape, ho]
          rfl
        have ho' : o' = SDMapObj.run sched 1 (o.step (sched 0) (.file .openW)) ((cfg.resultEvents name fs target TP FP all).take j) := by
          simp only [o', SDMapConfig.events, hN, List.take_succ_cons, SDMapObj.run]
          rfl
        obtain ⟨n, r, part, g1, g2, g3, g4⟩ := result_crash cfg name fs target TP FP [] o.selected o.unselected sched all j 1 _ _ hMid
        rw [← ho'] at g4
        obtain ⟨k1, k2, k3, k4, k5⟩ := fold_handle_accepted _ _ _ _ _ _ _ g2
        simp only [newSDMap, List.nil_append, Nat.zero_add] at k1 k2 k3 k4
        have hlen : (all.take n).length = n := by rw [List.length_take]; omega
        rcases g4 with ⟨m1, m2, D, B, m3, m4⟩ | ⟨m1, m2, m3⟩
        · refine ⟨TP, FP, all, all.take n, part, D, B, ht, hd, List.take_prefix _ _, k5, by rw [m1, k3], by rw [m1, m2]; omega, by rw [m4, k2], ?_, ?_, ?_⟩
          · rw [hlen]; exact g3
          · rw [m3]; simp [shape]
          · left; rw [m3]; rfl
        · refine ⟨TP, FP, all, all.take n, part, resultText name fs r.file, [], ht, hd, List.take_prefix _ _, k5, by rw [m3, k3], by rw [m3]; simp only; omega,
            by rw [m2, k2], Or.inl m2, by rw [m3]; simp, Or.inr ⟨by rw [m3], rfl, m2, by rw [m1, List.take_length]⟩⟩

theorem accepted_prefix {m : Params → Except PyErr Rat} {q : Rat} {x : Params} {target : Str × Str} {TP FP : Nat} {a b : List (Pattern × Cnt)} (h : a <+: b) :
    accepted m q x target TP FP a <+: accepted m q x target TP FP b := h.filterMap _

/-- **C73.** When the run would end well if it were not stopped, what is on the disk at any moment is the earlier file or a first part of the complete file. -/
theorem C73_prefix (cfg : SDMapConfig) (name : Str) (fs : Rat → Str) (df : Frame) (target : Str × Str) (full : SDMapState)
    (hfit : cfg.fit newSDMap df target = .ok full) (o : SDMapObj) (ho : o.out.handle = none) (sched : Nat → Nat) (j : Nat) :
    let o' := SDMapObj.run sched 0 o ((cfg.events name fs df target).take j)
    o' = o ∨ ∃ D, o'.out.disk = some D ∧ D <+: resultText name fs full.file := by
  intro o'
  rcases C73_crash cfg name fs df target o ho sched j with h | ⟨TP, FP, all, calls, part, D, B, h1, h2, h3, h4, h5, h6, h7, h8, h9, h10⟩
  · exact Or.inl h
  · refine Or.inr ⟨D, h9, ?_⟩
    obtain ⟨col, c1, c2, c3⟩ := h1
    obtain ⟨rz, z1, z2⟩ := h2
    have hfile : full.file = accepted cfg.measure cfg.minQuality cfg.extra target TP FP all ∧ full.calls = all ∧
        ∀ x ∈ all, ∃ q, cfg.measure (paramsFor x.2.1 x.2.2 TP FP cfg.extra) = .ok q := by
      unfold SDMapConfig.fit at hfit z1
      simp only at z1
      cases hN : nominalResults FPTree.sorted cfg.th df target with
      | error e => rw [hN] at hfit; cases hfit
      | ok v =>
        obtain ⟨rs?, TP', FP'⟩ := v
        obtain ⟨col', d1, d2, d3⟩ := totals_of hN
        rw [c1] at d1
        injection d1 with d1
        have hT : TP' = TP := by rw [d2, c2, d1]
        have hF : FP' = FP := by rw [d3, c3, hT]
        subst hT hF
        rw [hN] at hfit z1
        cases rs? with
        | none =>
          injection hfit with hfit
          injection z1 with z1
          subst hfit
          subst z1
          simp only [newSDMap] at z2 ⊢
          subst z2
          simp [accepted]
        | some rs =>
          simp only at hfit z1
          obtain ⟨a1, a2, a3, a4, a5⟩ := fold_handle_accepted _ _ _ _ _ _ _ hfit
          obtain ⟨b1, -⟩ := fold_handle_accepted _ _ _ _ _ _ _ z1
          simp only [newSDMap, List.nil_append] at a1 a2 b1
          rw [b1] at z2
          subst z2
          exact ⟨a2, a1, a5⟩
    obtain ⟨tl, htl⟩ := h3
    have hD : D <+: resultText name fs (accepted cfg.measure cfg.minQuality cfg.extra target TP FP calls) ++ part := ⟨B, h7⟩
    refine hD.trans ?_
    rw [hfile.1, ← htl]
    have happ : accepted cfg.measure cfg.minQuality cfg.extra target TP FP (calls ++ tl) =
        accepted cfg.measure cfg.minQuality cfg.extra target TP FP calls ++ accepted cfg.measure cfg.minQuality cfg.extra target TP FP tl := by
      simp [accepted]
    rw [happ, resultText_append, List.prefix_append_right_inj]
    rcases h8 with h8 | ⟨x, q, p1, p2, p3, p4⟩
    · rw [h8]; exact List.nil_prefix
    · have : ∃ tl', tl = x :: tl' := by
        rw [← htl, List.getElem?_append_right (Nat.le_refl _), Nat.sub_self] at p1
        cases tl with
        | nil => simp at p1
        | cons y tl' => simp at p1; exact ⟨tl', by rw [p1]⟩
      obtain ⟨tl', rfl⟩ := this
      have hx : accepted cfg.measure cfg.minQuality cfg.extra target TP FP (x :: tl') =
          theLine target TP FP x q :: accepted cfg.measure cfg.minQuality cfg.extra target TP FP tl' := by
        unfold accepted
        rw [List.filterMap_cons, p2]
        simp only
        rw [if_pos p3]
        rfl
      rw [hx]
      refine p4.trans ?_
      simp only [resultText, List.flatMap_cons]
      exact List.prefix_append _ _

/-- **C73.** A complete run that returns. `N` is the text of the file that a new object would write. If the object has no file left open by an earlier run,
that is what the file holds; and if it has, with `p` characters handed over and `b` in the buffer, the old text shows behind the new one as far as it is longer (with zeros
for the part that had been handed over). When nothing is frequent the file is not touched. -/
theorem C73_done (cfg : SDMapConfig) (name : Str) (fs : Rat → Str) (df : Frame) (target : Str × Str) (full : SDMapState)
    (hfit : cfg.fit newSDMap df target = .ok full) (o : SDMapObj) (sched : Nat → Nat) :
    let o' := SDMapObj.run sched 0 o (cfg.events name fs df target)
    let N := resultText name fs full.file
    o'.selected = o.selected + full.selected ∧ o'.unselected = o.unselected + full.unselected ∧
    ((full.calls = [] ∧ o'.out = o.out) ∨
      (o'.out.handle = none ∧ (o.out.handle = none → o'.out.disk = some N) ∧
        ∀ p b, o.out.handle = some (p, b) →
          o'.out.disk = some (N ++ (if b = [] then [] else (List.replicate p '\x00' ++ b).drop N.length)))) := by
  intro o' N
  unfold SDMapConfig.fit at hfit
  cases hN : nominalResults FPTree.sorted cfg.th df target with
  | error e => rw [hN] at hfit; cases hfit
  | ok v =>
    obtain ⟨rs?, TP, FP⟩ := v
    rw [hN] at hfit
    cases rs? with
    | none =>
      injection hfit with hfit
      subst hfit
      have ho' : o' = o := by simp only [o', SDMapConfig.events, hN, SDMapObj.run]
      rw [ho']
      exact ⟨rfl, rfl, Or.inl ⟨rfl, rfl⟩⟩
    | some rs =>
      simp only at hfit
      set all := rs.map (fun r => (Pattern.new r.1, r.2)) with hall
      have hMid : Mid name fs (stale o.out.handle) o.selected o.unselected (o.step (sched 0) (.file .openW)) newSDMap [] :=
        ⟨rfl, rfl, [], [], open_shape (sched 0) o.out, rfl⟩
      have ho' : o' = SDMapObj.run sched 1 (o.step (sched 0) (.file .openW)) (cfg.resultEvents name fs target TP FP all) := by
        simp only [o', SDMapConfig.events, hN, SDMapObj.run]
        rfl
      rcases result_done cfg name fs target TP FP _ o.selected o.unselected sched all 1 _ _ hMid with ⟨r, g1, g2⟩ | ⟨e, n, x, r, g1, g2, g3, g4, g5⟩
      · have : r = full := by
          have e1 : ({ newSDMap with file := [] } : SDMapState) = newSDMap := rfl
          rw [e1, g1] at hfit
          injection hfit
        subst this
        rw [← ho'] at g2
        rw [g2]
        refine ⟨rfl, rfl, Or.inr ⟨rfl, ?_, ?_⟩⟩
        · intro h; simp [h, stale, N]
        · intro p b h
          rw [h]
          simp only [stale, N]
          by_cases hb : b = []
          · simp [hb]
          · simp [hb]
      · have e1 : ({ newSDMap with file := [] } : SDMapState) = newSDMap := rfl
        rw [e1, g3] at hfit
        cases hfit

/-- **C73.** A complete run after any history gives exactly its own lines when the file was closed, or when its text is at least as long as all that the
interrupted run before it had written. -/
theorem C73_clean (cfg : SDMapConfig) (name : Str) (fs : Rat → Str) (df : Frame) (target : Str × Str) (full : SDMapState)
    (hfit : cfg.fit newSDMap df target = .ok full) (hc : full.calls ≠ []) (o : SDMapObj) (sched : Nat → Nat)
    (ho : ∀ p b, o.out.handle = some (p, b) → b = [] ∨ p + b.length ≤ (resultText name fs full.file).length) :
    (SDMapObj.run sched 0 o (cfg.events name fs df target)).out = ⟨some (resultText name fs full.file), none⟩ := by
  obtain ⟨-, -, h | ⟨h1, h2, h3⟩⟩ := C73_done cfg name fs df target full hfit o sched
  · exact absurd h.1 hc
  · have hd : (SDMapObj.run sched 0 o (cfg.events name fs df target)).out.disk = some (resultText name fs full.file) := by
      cases hh : o.out.handle with
      | none => exact h2 hh
      | some pb =>
        obtain ⟨p, b⟩ := pb
        rw [h3 p b hh]
        rcases ho p b hh with rfl | hle
        · simp
        · by_cases hb : b = []
          · simp [hb]
          · rw [if_neg hb, List.drop_eq_nil_of_le (by simp; omega), List.append_nil]
    generalize SDMapObj.run sched 0 o (cfg.events name fs df target) = z at h1 hd
    obtain ⟨a, b, d, h⟩ := z
    simp only at h1 hd
    rw [h1, hd]

/-- **C73.** A run that raises. Either it raises before the file is opened and nothing has changed, or a description made the measure raise: the ones before
it are counted, the file is left open, and the lines of the accepted ones are on the disk or in the buffer. -/
theorem C73_raise (cfg : SDMapConfig) (name : Str) (fs : Rat → Str) (df : Frame) (target : Str × Str) (e : PyErr)
    (hfit : cfg.fit newSDMap df target = .error e) (o : SDMapObj) (ho : o.out.handle = none) (sched : Nat → Nat) :
    let o' := SDMapObj.run sched 0 o (cfg.events name fs df target)
    o' = o ∨ ∃ TP FP all calls x D B, Totals df target TP FP ∧ Descriptions cfg df target all ∧ calls ++ [x] <+: all ∧
      (∀ y ∈ calls, ∃ q, cfg.measure (paramsFor y.2.1 y.2.2 TP FP cfg.extra) = .ok q) ∧
      cfg.measure (paramsFor x.2.1 x.2.2 TP FP cfg.extra) = .error e ∧
      o'.selected = o.selected + (accepted cfg.measure cfg.minQuality cfg.extra target TP FP calls).length ∧
      o'.selected + o'.unselected = o.selected + o.unselected + calls.length ∧
      D ++ B = resultText name fs (accepted cfg.measure cfg.minQuality cfg.extra target TP FP calls) ∧
      o'.out = ⟨some D, some (D.length, B)⟩ := by
  intro o'
  unfold SDMapConfig.fit at hfit
  cases hN : nominalResults FPTree.sorted cfg.th df target with
  | error e' =>
    left
    simp only [o', SDMapConfig.events, hN, SDMapObj.run, SDMapObj.step]
  | ok v =>
    obtain ⟨rs?, TP, FP⟩ := v
    rw [hN] at hfit
    cases rs? with
    | none => cases hfit
    | some rs =>
      right
      simp only at hfit
      have hd := descriptions_of cfg df target hN
      have ht := totals_of hN
      set all := rs.map (fun r => (Pattern.new r.1, r.2)) with hall
      have hMid : Mid name fs [] o.selected o.unselected (o.step (sched 0) (.file .openW)) newSDMap [] := by
        refine ⟨rfl, rfl, [], [], ?_, rfl⟩
        show o.out.step (sched 0) .openW = _
        rw [open_shape, ho]
        rfl
      have ho' : o' = SDMapObj.run sched 1 (o.step (sched 0) (.file .openW)) (cfg.resultEvents name fs target TP FP all) := by
        simp only [o', SDMapConfig.events, hN, SDMapObj.run]
        rfl
      have e1 : ({ newSDMap with file := [] } : SDMapState) = newSDMap := rfl
      rw [e1] at hfit
      rcases result_done cfg name fs target TP FP _ o.selected o.unselected sched all 1 _ _ hMid with ⟨r, g1, g2⟩ | ⟨e', n, x, r, g1, g2, g3, g4, g5⟩
      · rw [g1] at hfit; cases hfit
      · rw [g3] at hfit
        injection hfit with hfit
        subst hfit
        rw [← ho'] at g5
        obtain ⟨k1, k2, k3, k4, k5⟩ := fold_handle_accepted _ _ _ _ _ _ _ g4
        simp only [newSDMap, List.nil_append, Nat.zero_add] at k1 k2 k3 k4
        obtain ⟨m1, m2, D, B, m3, m4⟩ := g5
        rw [List.append_nil] at m4
        refine ⟨TP, FP, all, all.take n, x, D, B, ht, hd, ?_, k5, g2, by rw [m1, k3], by rw [m1, m2]; omega, by rw [m4, k2], by rw [m3]; simp [shape]⟩
        have : all.take n ++ [x] = all.take (n + 1) := by rw [List.take_add_one, g1]; rfl
        rw [this]
        exact List.take_prefix _ _

/-! ### A stale tail -/

/-- four rows, with an attribute that is the same everywhere: the negative predictive value of `b = 'c'` divides by zero -/
def Spec.constFrame : Frame :=
  ⟨4, [(c!"a", [.str c!"x", .str c!"x", .str c!"y", .str c!"y"]), (c!"b", [.str c!"c", .str c!"c", .str c!"c", .str c!"c"]),
    (c!"t", [.str c!"y", .str c!"n", .str c!"y", .str c!"n"])]⟩

def Spec.smallFrame : Frame := ⟨2, [(c!"a", [.str c!"x", .str c!"z"]), (c!"t", [.str c!"y", .str c!"n"])]⟩

def npvConfig : SDMapConfig := ⟨Measure.npv.compute, 0, .n 1, []⟩

def npvRun (sched : Nat → Nat) (o : SDMapObj) (df : Frame) : SDMapObj :=
  SDMapObj.run sched 0 o (npvConfig.events c!"NPV" (fun _ => c!"0.5") df (c!"t", c!"y"))

set_option maxRecDepth 20000 in
/-- **C73**, the claim that the file of a run that returns has exactly its lines fails: a run with the negative predictive value raises on a frame with a constant
attribute; the next run of the same object on a smaller frame returns, and its file ends with lines of the first one (subgroups of the other frame). -/
theorem C73_stale_fails : ∃ (cfg : SDMapConfig) (df1 df2 : Frame) (target : Str × Str) (full : SDMapState) (e : PyErr) (o : SDMapObj) (sched : Nat → Nat),
    cfg.fit newSDMap df1 target = .error e ∧ cfg.fit newSDMap df2 target = .ok full ∧ o.out.handle = none ∧
    (SDMapObj.run sched 0 (SDMapObj.run sched 0 o (cfg.events c!"NPV" (fun _ => c!"0.5") df1 target)) (cfg.events c!"NPV" (fun _ => c!"0.5") df2 target)).out =
      ⟨some (resultText c!"NPV" (fun _ => c!"0.5") full.file ++
        c!"; FP = 2\nDescription: [a = 'y'], Target: t = 'y' ; Quality Measure NPV = 0.5 ; tp = 1 ; fp = 1 ; TP = 2 ; FP = 2\nDescription: [a = 'y', b = 'c'], Target: t = 'y' ; Quality Measure NPV = 0.5 ; tp = 1 ; fp = 1 ; TP = 2 ; FP = 2\n"), none⟩ := by
  have h : (match npvConfig.fit newSDMap constFrame (c!"t", c!"y"), npvConfig.fit newSDMap smallFrame (c!"t", c!"y") with
      | .error _, .ok full => decide ((npvRun (fun _ => 0) (npvRun (fun _ => 0) ⟨0, 0, ⟨none, none⟩⟩ constFrame) smallFrame).out =
        ⟨some (resultText c!"NPV" (fun _ => c!"0.5") full.file ++
        c!"; FP = 2\nDescription: [a = 'y'], Target: t = 'y' ; Quality Measure NPV = 0.5 ; tp = 1 ; fp = 1 ; TP = 2 ; FP = 2\nDescription: [a = 'y', b = 'c'], Target: t = 'y' ; Quality Measure NPV = 0.5 ; tp = 1 ; fp = 1 ; TP = 2 ; FP = 2\n"), none⟩)
      | _, _ => false) = true := by decide +kernel
  split at h
  · rename_i e full h1 h2
    exact ⟨npvConfig, constFrame, smallFrame, _, full, e, ⟨0, 0, ⟨none, none⟩⟩, fun _ => 0, h1, h2, rfl, of_decide_eq_true h⟩
  · cases h

/-- a run that returns, with a buffer of which ten characters are handed over after each operation: a prefix in the middle, everything at the end -/
example : (SDMapObj.run (fun _ => 10) 0 ⟨3, 4, ⟨some c!"old", none⟩⟩
      ((npvConfig.events c!"NPV" (fun _ => c!"0.5") smallFrame (c!"t", c!"y")).take 3)).out.disk = some c!"Description: [a = 'x" ∧
    (npvRun (fun _ => 10) ⟨3, 4, ⟨some c!"old", none⟩⟩ smallFrame).selected = 5 ∧ (npvRun (fun _ => 10) ⟨3, 4, ⟨some c!"old", none⟩⟩ smallFrame).unselected = 4 ∧
    (npvRun (fun _ => 10) ⟨3, 4, ⟨some c!"old", none⟩⟩ smallFrame).out.handle = none := by decide +kernel

/-! ### The subgroup list algorithms -/

section
variable {G C : Type}

theorem loadLine_silent {n k : Nat} {line : Str} {c : Cand} {w : Str} (h : loadLine n k line = .ok (some c, w)) : w = [] := by
  unfold loadLine at h
  repeat' split at h
  all_goals first | (simp at h; done) | skip
  all_goals
    simp only at h
    split at h <;> simp at h
  exact h.2

theorem loadWrites_ok (n : Nat) (ls : List Str) (st : LoadState) :
    (∀ st', (loadWrites n ls st).2 = .ok st' → loadLoop n ls st = .ok st' ∧ st'.log = st.log ++ (loadWrites n ls st).1.flatten) ∧
    (∀ e, (loadWrites n ls st).2 = .error e → loadLoop n ls st = .error e ∧ ∃ pre bad rest st', ls = pre ++ bad :: rest ∧ loadLoop n pre st = .ok st' ∧
      st'.log = st.log ++ (loadWrites n ls st).1.flatten) := by
  induction ls generalizing st with
  | nil =>
    refine ⟨fun st' h => ?_, fun e h => ?_⟩
    · simp only [loadWrites, Except.ok.injEq] at h; subst h; simp [loadLoop, loadWrites]
    · simp [loadWrites] at h
  | cons l ls ih =>
    unfold loadWrites
    cases hl : loadLine n st.lineNumber l with
    | error e =>
      refine ⟨fun _ h => (by cases h), fun e' h => ⟨?_, [], l, ls, st, rfl, rfl, by simp⟩⟩
      simp only [Except.error.injEq] at h
      simp only [loadLoop, hl, h]
    | ok v =>
      obtain ⟨c?, w⟩ := v
      cases c? with
      | none =>
        obtain ⟨i1, i2⟩ := ih ⟨st.cands, st.log ++ w, st.lineNumber + 1, st.read⟩
        simp only
        refine ⟨fun st' h => ⟨?_, by rw [(i1 st' h).2]; simp⟩, fun e h => ⟨?_, ?_⟩⟩
        · simp only [loadLoop, hl]; exact (i1 st' h).1
        · simp only [loadLoop, hl]; exact (i2 e h).1
        · obtain ⟨-, pre, bad, rest, st', h1, h2, h3⟩ := i2 e h
          exact ⟨l :: pre, bad, rest, st', by rw [h1]; rfl, by simp only [loadLoop, hl]; exact h2, by rw [h3]; simp⟩
      | some c =>
        have hw0 := loadLine_silent hl
        subst hw0
        obtain ⟨i1, i2⟩ := ih ⟨st.cands ++ [c], st.log ++ [], st.lineNumber + 1, st.read + 1⟩
        simp only
        refine ⟨fun st' h => ⟨?_, by rw [(i1 st' h).2]; simp⟩, fun e h => ⟨?_, ?_⟩⟩
        · simp only [loadLoop, hl]; exact (i1 st' h).1
        · simp only [loadLoop, hl]; exact (i2 e h).1
        · obtain ⟨-, pre, bad, rest, st', h1, h2, h3⟩ := i2 e h
          exact ⟨l :: pre, bad, rest, st', by rw [h1]; rfl, by simp only [loadLoop, hl]; exact h2, by rw [h3]; simp⟩

theorem listWrites_ok (M : Miner G C) (l0 : SubgroupList) (k : Nat) (cs : List (Option Cand)) :
    ((listWrites M l0 k cs).2 = none → ∃ res, buildLists M l0 k cs = .ok res ∧ (listWrites M l0 k cs).1 = res.map listText) ∧
    (∀ e, (listWrites M l0 k cs).2 = some e → buildLists M l0 k cs = .error e ∧
      ∃ k' res, k' < k ∧ buildLists M l0 k' cs = .ok res ∧ (listWrites M l0 k cs).1 = res.map listText) := by
  induction k generalizing cs with
  | zero => exact ⟨fun _ => ⟨[], rfl, rfl⟩, fun e h => by simp [listWrites] at h⟩
  | succ k ih =>
    unfold listWrites
    cases hb : buildList M (remaining cs + 1) l0 M.init cs with
    | error e =>
      refine ⟨fun h => (by simp at h), fun e' h => ?_⟩
      simp only [Option.some.injEq] at h
      exact ⟨by simp only [buildLists, hb, h], 0, [], by omega, rfl, rfl⟩
    | ok v =>
      cases v with
      | none => exact ⟨fun _ => ⟨[], by simp only [buildLists, hb], rfl⟩, fun e' h => by simp at h⟩
      | some v =>
        obtain ⟨sl, cs'⟩ := v
        obtain ⟨i1, i2⟩ := ih cs'
        simp only
        refine ⟨fun h => ?_, fun e h => ?_⟩
        · obtain ⟨res, r1, r2⟩ := i1 h
          exact ⟨sl :: res, by simp only [buildLists, hb, r1], by rw [r2]; rfl⟩
        · obtain ⟨h1, k', res, h2, h3, h4⟩ := i2 e h
          refine ⟨by simp only [buildLists, hb, h1], k' + 1, sl :: res, by omega, by simp only [buildLists, hb, h3], by rw [h4]; rfl⟩

/-- the operations on the output file of a complete run: they write what `listRun` says, or stop with its exception -/
theorem listOps_run (M : Miner G C) (maxSl : Nat) (df : Frame) (target : Str × Str) (input : Str) (hw : WF df) :
    (∃ (txt : Str) (ts : List Str), listRun M maxSl df target input = .ok txt ∧
      listOps M maxSl df target input = (.openW :: (ts.map .write ++ [.close]), none) ∧ ts.flatten = txt) ∨
    (∃ e, listRun M maxSl df target input = .error e ∧ (listOps M maxSl df target input = ([], some e) ∨
      ∃ ts : List Str, listOps M maxSl df target input = (.openW :: ts.map .write, some e) ∧
        ((∃ k, k < maxSl ∧ listRun M k df target input = .ok ts.flatten) ∨
         (∃ pre bad rest n, fileLines input = pre ++ bad :: rest ∧
          listRun M 0 df target (fileText pre) = .ok (ts.flatten ++ c!"Read subgroups: " ++ natStr n ++ c!".\nInput file read.\n\n\n"))))) := by
  by_cases h0 : df.nrows = 0
  · right; refine ⟨.valueError, ?_, Or.inl ?_⟩ <;> simp [listRun, listOps, h0]
  by_cases h1 : df.nominal = true
  swap
  · right; refine ⟨.datasetAttributeType, ?_, Or.inl ?_⟩ <;> simp [listRun, listOps, h0, h1]
  cases hm : targetMask df target with
  | error e => right; refine ⟨e, ?_, Or.inl ?_⟩ <;> simp [listRun, listOps, h0, h1, hm]
  | ok mask =>
    have hlen : mask.length = df.nrows := by
      unfold targetMask Frame.col at hm
      cases hl : df.cols.lookup target.1 with
      | none => rw [hl] at hm; cases hm
      | some col =>
        rw [hl] at hm
        injection hm with hm
        rw [← hm, List.length_map]
        exact hw _ (mem_of_lookup hl)
    obtain ⟨l0, hl0⟩ : ∃ l0, SubgroupList.new mask (Bits.not mask) df.nrows = .ok l0 := by
      unfold SubgroupList.new
      have : (Bits.not mask).length = mask.length := by simp [Bits.not]
      rw [if_neg (by simp [hlen]), if_neg (by simp [this, hlen])]
      exact ⟨_, rfl⟩
    have hfit : ∀ k cs, listFit M k df target (.ok cs) = buildLists M l0 k (cs.map some) := by
      intro k cs
      simp only [listFit, h0, if_false, h1, Bool.not_true, Bool.false_eq_true, hm, hl0]
    obtain ⟨w1, w2⟩ := loadWrites_ok df.nrows (fileLines input) ⟨[], c!"Reading input file.\n", 1, 0⟩
    cases hload : (loadWrites df.nrows (fileLines input) ⟨[], c!"Reading input file.\n", 1, 0⟩).2 with
    | error e =>
      right
      obtain ⟨z1, pre, bad, rest, st', z2, z3, z4⟩ := w2 e hload
      refine ⟨e, ?_, Or.inr ⟨[datasetInfo df mask, c!"Reading input file.\n"] ++ (loadWrites df.nrows (fileLines input) ⟨[], c!"Reading input file.\n", 1, 0⟩).1, ?_, Or.inr
        ⟨pre, bad, rest, st'.read, z2, ?_⟩⟩⟩
      · simp only [listRun, h0, if_false, h1, Bool.not_true, Bool.false_eq_true, hm, loadCandidates, z1]
      · simp only [listOps, h0, if_false, h1, Bool.not_true, Bool.false_eq_true, hm, hl0, hload]
        rfl
      · have hp : fileLines (fileText pre) = pre := fileLines_text pre (fun l hl => fileLines_one (s := input) (by rw [z2]; simp [hl]))
        simp only [listRun, h0, if_false, h1, Bool.not_true, Bool.false_eq_true, hm, loadCandidates, hp, z3, hfit, buildLists, z4]
        simp
    | ok st =>
      obtain ⟨z1, z2⟩ := w1 st hload
      obtain ⟨v1, v2⟩ := listWrites_ok M l0 maxSl (st.cands.map some)
      have hrun : ∀ k, listRun M k df target input = match buildLists M l0 k (st.cands.map some) with
          | .error e => .error e
          | .ok res => .ok (datasetInfo df mask ++ (st.log ++ (c!"Read subgroups: " ++ natStr st.read ++ c!".\n") ++ c!"Input file read.\n\n\n") ++ res.flatMap listText) := by
        intro k
        simp only [listRun, h0, if_false, h1, Bool.not_true, Bool.false_eq_true, hm, loadCandidates, z1, hfit]
        cases buildLists M l0 k (st.cands.map some) <;> rfl
      cases hlist : (listWrites M l0 maxSl (st.cands.map some)).2 with
      | none =>
        left
        obtain ⟨res, r1, r2⟩ := v1 hlist
        refine ⟨datasetInfo df mask ++ (st.log ++ (c!"Read subgroups: " ++ natStr st.read ++ c!".\n") ++ c!"Input file read.\n\n\n") ++ res.flatMap listText,
          [datasetInfo df mask, c!"Reading input file.\n"] ++ (loadWrites df.nrows (fileLines input) ⟨[], c!"Reading input file.\n", 1, 0⟩).1 ++
          [c!"Read subgroups: " ++ natStr st.read ++ c!".\n", c!"Input file read.\n\n\n"] ++ (listWrites M l0 maxSl (st.cands.map some)).1, ?_, ?_, ?_⟩
        · rw [hrun, r1]
        · simp only [listOps, h0, if_false, h1, Bool.not_true, Bool.false_eq_true, hm, hl0, hload, hlist]
          simp
        · rw [z2, r2]
          simp [List.flatMap_def]
      | some e =>
        right
        obtain ⟨y1, k', res, y2, y3, y4⟩ := v2 e hlist
        refine ⟨e, by rw [hrun, y1], Or.inr ⟨[datasetInfo df mask, c!"Reading input file.\n"] ++ (loadWrites df.nrows (fileLines input) ⟨[], c!"Reading input file.\n", 1, 0⟩).1 ++
          [c!"Read subgroups: " ++ natStr st.read ++ c!".\n", c!"Input file read.\n\n\n"] ++ (listWrites M l0 maxSl (st.cands.map some)).1, ?_, Or.inl ⟨k', y2, ?_⟩⟩⟩
        · simp only [listOps, h0, if_false, h1, Bool.not_true, Bool.false_eq_true, hm, hl0, hload, hlist]
          simp
        · rw [hrun, y3]
          simp only
          rw [z2, y4]
          simp [List.flatMap_def]

/-- the first operations of a run that opens the file, writes some texts and may close it -/
theorem ops_prefix (ts : List Str) (tl : List OutFile.Op) (htl : tl = [] ∨ tl = [.close]) (o : OutFile) (ho : o.handle = none) (sched : Nat → Nat) (j : Nat) :
    let o' := OutFile.run sched 0 o ((.openW :: (ts.map .write ++ tl)).take j)
    o' = o ∨ ∃ D, o'.disk = some D ∧ D <+: ts.flatten := by
  intro o'
  cases j with
  | zero => exact Or.inl rfl
  | succ j =>
    right
    have h1 : o' = OutFile.run sched 1 (shape [] [] []) ((ts.take j).map .write ++ tl.take (j - ts.length)) := by
      simp only [o', List.take_succ_cons, OutFile.run]
      rw [open_shape, ho, List.take_append, List.map_take, List.length_map]
      rfl
    obtain ⟨D, B, e1, -, e3⟩ := OutFile.run_writes sched (ts.take j) 1 [] [] []
    rw [OutFile.run_append, e3] at h1
    simp only [List.nil_append] at e1
    have hp : ∀ X : Str, X <+: D ++ B → X <+: ts.flatten := fun X hX => hX.trans (e1 ▸ flatten_take_prefix ts j)
    have hcase : tl.take (j - ts.length) = [] ∨ tl.take (j - ts.length) = [.close] := by
      rcases htl with rfl | rfl
      · simp
      · cases j - ts.length <;> simp
    rcases hcase with hc | hc
    · rw [hc] at h1
      refine ⟨D, by rw [h1]; simp [OutFile.run, shape], hp D (List.prefix_append _ _)⟩
    · rw [hc] at h1
      refine ⟨D ++ B, ?_, hp _ List.prefix_rfl⟩
      rw [h1]
      simp only [OutFile.run, close_shape]
      simp

/-- **C73.** The output file of GMSL, PSLD and DSLM (for any way to choose the subgroups). A run that returns leaves the file closed with exactly the text of C66, and while
it is written the disk has the earlier file or a first part of that text, whatever the buffering. A run that raises does so before the file is opened, or it leaves
the file open, part of the text on the disk and the rest in the buffer; this text is the complete output of the same run with fewer lists (the lists completed before the
exception), or, when the exception comes from a line of the input, the beginning of the output for the lines before it. -/
theorem C73_lists (M : Miner G C) (maxSl : Nat) (df : Frame) (target : Str × Str) (input : Str) (hw : WF df) (o : OutFile) (ho : o.handle = none)
    (sched : Nat → Nat) :
    (∀ txt, listRun M maxSl df target input = .ok txt → (listOps M maxSl df target input).2 = none ∧
      OutFile.run sched 0 o (listOps M maxSl df target input).1 = ⟨some txt, none⟩ ∧
      ∀ j, OutFile.run sched 0 o ((listOps M maxSl df target input).1.take j) = o ∨
        ∃ D, (OutFile.run sched 0 o ((listOps M maxSl df target input).1.take j)).disk = some D ∧ D <+: txt) ∧
    (∀ e, listRun M maxSl df target input = .error e → (listOps M maxSl df target input).2 = some e ∧
      (OutFile.run sched 0 o (listOps M maxSl df target input).1 = o ∨
        ∃ D B, OutFile.run sched 0 o (listOps M maxSl df target input).1 = ⟨some D, some (D.length, B)⟩ ∧
          ((∃ k, k < maxSl ∧ listRun M k df target input = .ok (D ++ B)) ∨
           (∃ pre bad rest n, fileLines input = pre ++ bad :: rest ∧
            listRun M 0 df target (fileText pre) = .ok (D ++ B ++ c!"Read subgroups: " ++ natStr n ++ c!".\nInput file read.\n\n\n"))))) := by
  rcases listOps_run M maxSl df target input hw with ⟨txt, ts, h1, h2, h3⟩ | ⟨e, h1, h2⟩
  · refine ⟨fun txt' h => ?_, fun e h => (by rw [h1] at h; cases h)⟩
    rw [h1] at h
    injection h with h
    subst h
    rw [h2]
    refine ⟨rfl, ?_, fun j => ?_⟩
    · obtain ⟨D, B, e1, -, e3⟩ := OutFile.run_writes sched ts 1 [] [] []
      simp only [OutFile.run]
      rw [open_shape, ho, OutFile.run_append]
      have hs : stale none = [] := rfl
      rw [hs, e3]
      simp only [OutFile.run, close_shape]
      simp only [List.nil_append] at e1
      rw [e1, h3]
      simp
    · rw [← h3]
      exact ops_prefix ts [.close] (Or.inr rfl) o ho sched j
  · refine ⟨fun txt h => (by rw [h1] at h; cases h), fun e' h => ?_⟩
    rw [h1] at h
    injection h with h
    subst h
    rcases h2 with h2 | ⟨ts, h2, h3⟩
    · rw [h2]
      exact ⟨rfl, Or.inl rfl⟩
    · rw [h2]
      refine ⟨rfl, Or.inr ?_⟩
      obtain ⟨D, B, e1, -, e3⟩ := OutFile.run_writes sched ts 1 [] [] []
      simp only [List.nil_append] at e1
      refine ⟨D, B, ?_, by rw [e1]; exact h3⟩
      simp only [OutFile.run]
      rw [open_shape, ho]
      have hs : stale none = [] := rfl
      rw [hs, e3]
      simp [shape]

end

/-- a miner for the examples: the gain is the number of positives -/
def toyMiner : Miner Nat Unit := ⟨0, fun a b => decide (a > b), fun l _ c => .ok (l, c.pos.ones, true), (), fun _ _ => (), fun _ _ => true, some 1⟩

def trapInput : Str := c!"Description: [a = 'x'], Target: t = 'y' ; 10 ; 01\nbad\nDescription: [a, = 'x'], Target: t = 'y' ; 10 ; 01\n"

example : WF smallFrame := by
  intro c hc
  simp [smallFrame] at hc
  rcases hc with rfl | rfl <;> rfl

/-- a file with a good line and a line that cannot be loaded: the run raises after the output was opened, with the text for the first line written -/
example :
    (listOps toyMiner 1 smallFrame (c!"t", c!"y") trapInput).2 = some .indexError ∧
    OutFile.run (fun _ => 7) 0 ⟨some c!"old", none⟩ (listOps toyMiner 1 smallFrame (c!"t", c!"y") trapInput).1 =
      ⟨some c!"Dataset information:\n", some (21, c!"\t- Number of instances: 2.\n\t- Number of positive instances: 1.\n\t- Number of negative instances: 1.\n\t- Total number of attributes (including the target): 2.\n\n\nReading input file.\nERROR: subgroup in line 2 from input file was not loaded.\n\t- Format not valid.\n")⟩ := by
  decide +kernel

/-- a run that returns -/
example : (listOps toyMiner 2 smallFrame (c!"t", c!"y") c!"Description: [a = 'x'], Target: t = 'y' ; 10 ; 01\n").2 = none ∧
    (listOps toyMiner 2 smallFrame (c!"t", c!"y") c!"Description: [a = 'x'], Target: t = 'y' ; 10 ; 01\n").1.length = 8 := by decide +kernel

end Verif

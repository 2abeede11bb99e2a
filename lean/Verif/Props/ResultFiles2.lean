import Verif.Props.ResultFiles
import Verif.Props.IDSD
/-! Property C79 for SDMapStar, SDIGA, BSD, IDSD and QFinder. -/
namespace Verif
open Spec OutFile

/-! ### SDMapStar -/
section Star

theorem sjudge_handle (cfg : SDMapStarConfig) (name : Str) (fs : Rat → Str) (target : Str × Str) (TP FP : Nat) (st : SDMapState) (x : Pattern × Cnt) :
    (∃ e, cfg.toSDMapConfig.handle target TP FP st x = .error e ∧ cfg.judge name fs target TP FP x = .error e) ∨
    ∃ st' r, cfg.toSDMapConfig.handle target TP FP st x = .ok st' ∧ cfg.judge name fs target TP FP x = .ok r := by
  unfold SDMapConfig.handle SDMapStarConfig.judge
  cases cfg.measure (paramsFor x.2.1 x.2.2 TP FP cfg.extra) with
  | error e => exact Or.inl ⟨e, rfl, rfl⟩
  | ok q =>
    right
    simp only
    split
    · exact ⟨_, _, rfl, rfl⟩
    · exact ⟨_, _, rfl, rfl⟩

theorem sjudge_ok {cfg : SDMapStarConfig} {name : Str} {fs : Rat → Str} {target : Str × Str} {TP FP : Nat} {x : Pattern × Cnt} :
    (∃ r, cfg.judge name fs target TP FP x = .ok r) ↔ ∃ q, cfg.measure (paramsFor x.2.1 x.2.2 TP FP cfg.extra) = .ok q := by
  unfold SDMapStarConfig.judge
  cases cfg.measure (paramsFor x.2.1 x.2.2 TP FP cfg.extra) with
  | error e => simp
  | ok q => simp only; split <;> simp

theorem sjudge_some {cfg : SDMapStarConfig} {name : Str} {fs : Rat → Str} {target : Str × Str} {TP FP : Nat} {x : Pattern × Cnt} {ts : List Str}
    (h : cfg.judge name fs target TP FP x = .ok (some ts)) :
    ∃ q, cfg.measure (paramsFor x.2.1 x.2.2 TP FP cfg.extra) = .ok q ∧ cfg.minQuality ≤ q ∧ ts.flatten = lineText name fs (theLine target TP FP x q) := by
  unfold SDMapStarConfig.judge at h
  cases hm : cfg.measure (paramsFor x.2.1 x.2.2 TP FP cfg.extra) with
  | error e => rw [hm] at h; cases h
  | ok q =>
    rw [hm] at h
    simp only at h
    by_cases hq : q ≥ cfg.minQuality
    · rw [if_pos hq] at h
      injection h with h
      injection h with h
      exact ⟨q, rfl, hq, by rw [← h, parts_text]; rfl⟩
    · rw [if_neg hq] at h; cases h

theorem stexts (cfg : SDMapStarConfig) (name : Str) (fs : Rat → Str) (target : Str × Str) (TP FP : Nat) (xs : List (Pattern × Cnt)) :
    acceptedTexts (cfg.judge name fs target TP FP) xs = (accepted cfg.measure cfg.minQuality cfg.extra target TP FP xs).map (ResultLine.parts name fs) := by
  unfold acceptedTexts accepted
  rw [List.map_filterMap]
  apply List.filterMap_congr
  intro v _
  unfold SDMapStarConfig.judge
  cases cfg.measure (paramsFor v.2.1 v.2.2 TP FP cfg.extra) with
  | error e => rfl
  | ok q =>
    simp only
    by_cases hq : q ≥ cfg.minQuality
    · rw [if_pos hq, if_pos hq]; rfl
    · rw [if_neg hq, if_neg hq]; rfl

theorem stexts_flat (cfg : SDMapStarConfig) (name : Str) (fs : Rat → Str) (target : Str × Str) (TP FP : Nat) (xs : List (Pattern × Cnt)) :
    (acceptedTexts (cfg.judge name fs target TP FP) xs).flatten.flatten = resultText name fs (accepted cfg.measure cfg.minQuality cfg.extra target TP FP xs) := by
  rw [stexts]
  unfold resultText
  induction accepted cfg.measure cfg.minQuality cfg.extra target TP FP xs with
  | nil => rfl
  | cons l ls ih => simp only [List.map_cons, List.flatten_cons, List.flatten_append, ih, parts_text, List.flatMap_cons]

/-- the events of `fit` and what `fit` gives -/
theorem star_cases (cfg : SDMapStarConfig) (name : Str) (fs : Rat → Str) (df : Frame) (target : Str × Str) (st : StarState) :
    (cfg.events name fs st.ks df target = [] ∧ cfg.fit st df target = .ok st) ∨
    (∃ e, cfg.events name fs st.ks df target = [.raised e] ∧ cfg.fit st df target = .error e) ∨
    ∃ (TP FP : Nat) (t : Trace (Pattern × Cnt) (List Rat)), Totals df target TP FP ∧
      cfg.events name fs st.ks df target = .file .openW :: judgedEvents (cfg.judge name fs target TP FP) t.fin t.items ∧
      (cfg.fit st df target).map (fun s => s.base) = (t.play (cfg.toSDMapConfig.handle target TP FP) { st.base with file := [] }).map (·.1) := by
  unfold SDMapStarConfig.events SDMapStarConfig.fit
  by_cases h0 : cfg.num = 0
  · rw [if_pos h0, if_pos h0]
    cases hN : nominalResults (fun t => t.header.map (·.1)) cfg.th df target with
    | error e => exact Or.inr (Or.inl ⟨e, rfl, rfl⟩)
    | ok v =>
      obtain ⟨rs?, TP, FP⟩ := v
      cases rs? with
      | none => exact Or.inl ⟨rfl, rfl⟩
      | some rs =>
        refine Or.inr (Or.inr ⟨TP, FP, ⟨rs.map (fun r => (Pattern.new r.1, r.2)), .ok []⟩, totals_of hN, rfl, ?_⟩)
        simp only [Trace.play]
        cases (rs.map (fun r => (Pattern.new r.1, r.2))).foldlM (cfg.toSDMapConfig.handle target TP FP) { st.base with file := [] } <;> rfl
  · rw [if_neg h0, if_neg h0]
    by_cases hn : df.nominal = true
    swap
    · have hn' : df.nominal = false := by simpa using hn
      simp only [hn', Bool.not_false, if_true]
      exact Or.inr (Or.inl ⟨_, rfl, rfl⟩)
    simp only [hn, Bool.not_true, Bool.false_eq_true, if_false]
    cases hm : targetMask df target with
    | error e => exact Or.inr (Or.inl ⟨e, rfl, rfl⟩)
    | ok mask =>
      simp only
      by_cases he : (FPTree.buildTree Selector.dictKey (frequentSelectors cfg.th df target.1 mask) (keyRows df target.1 mask)).isEmpty = true
      · rw [if_pos he, if_pos he]
        exact Or.inl ⟨rfl, rfl⟩
      · rw [if_neg he, if_neg he]
        refine Or.inr (Or.inr ⟨_, _, _, totals_mask hm, rfl, ?_⟩)
        have hg := SDMapStarConfig.growth_emit cfg target (mask.count true) (df.nrows - mask.count true)
          ((FPTree.buildTree Selector.dictKey (frequentSelectors cfg.th df target.1 mask) (keyRows df target.1 mask)).nodes.length + 1)
          { st with base := { st.base with file := [] } } (FPTree.buildTree Selector.dictKey (frequentSelectors cfg.th df target.1 mask) (keyRows df target.1 mask)) []
        simp only at hg
        rw [← hg]
        cases SDMapStarConfig.fpgrowthStar cfg target (mask.count true) (df.nrows - mask.count true)
          ((FPTree.buildTree Selector.dictKey (frequentSelectors cfg.th df target.1 mask) (keyRows df target.1 mask)).nodes.length + 1)
          { st with base := { st.base with file := [] } } (FPTree.buildTree Selector.dictKey (frequentSelectors cfg.th df target.1 mask) (keyRows df target.1 mask)) [] <;> rfl

/-- **C79.** SDMapStar: when the run would end well if it were not stopped, what is on the disk at any moment is the earlier file or a first part of the complete file. The
object may have made other runs before. -/
theorem C79_star_prefix (cfg : SDMapStarConfig) (name : Str) (fs : Rat → Str) (df : Frame) (target : Str × Str) (st full : StarState)
    (hfit : cfg.fit st df target = .ok full) (o : SDMapObj) (ho : o.out.handle = none) (sched : Nat → Nat) (j : Nat) :
    let o' := SDMapObj.run sched 0 o ((cfg.events name fs st.ks df target).take j)
    o' = o ∨ ∃ D, o'.out.disk = some D ∧ D <+: resultText name fs full.base.file := by
  intro o'
  rcases star_cases cfg name fs df target st with ⟨h1, -⟩ | ⟨e, -, h2⟩ | ⟨TP, FP, t, hT, h1, h2⟩
  · left
    simp only [o', h1, List.take_nil, SDMapObj.run]
  · rw [hfit] at h2; cases h2
  · cases j with
    | zero => exact Or.inl rfl
    | succ j =>
      right
      rw [hfit] at h2
      unfold Trace.play at h2
      cases hfold : t.items.foldlM (cfg.toSDMapConfig.handle target TP FP) { st.base with file := [] } with
      | error e => rw [hfold] at h2; cases h2
      | ok r =>
        rw [hfold] at h2
        simp only at h2
        cases hout : t.out with
        | error e => rw [hout] at h2; cases h2
        | ok ks =>
          rw [hout] at h2
          simp only [Except.map, Except.ok.injEq] at h2
          obtain ⟨-, f2, -, -, f5⟩ := fold_handle_accepted _ _ _ _ _ _ _ hfold
          rw [← h2, List.nil_append] at f2
          have h3 : o' = SDMapObj.run sched 1 ⟨o.selected, o.unselected, shape [] [] []⟩ ((judgedEvents (cfg.judge name fs target TP FP) t.fin t.items).take j) := by
            simp only [o', h1, List.take_succ_cons, SDMapObj.run, SDMapObj.step]
            rw [open_shape, ho]
            rfl
          obtain ⟨n, part, k1, k2, k3, k4, k5, k6⟩ := judged_crash (cfg.judge name fs target TP FP) t.fin t.isFin []
            sched t.items j 1 ⟨o.selected, o.unselected, shape [] [] []⟩ [] [] rfl
          rw [← h3] at k6
          have hsplit : resultText name fs (accepted cfg.measure cfg.minQuality cfg.extra target TP FP (t.items.take n)) ++ part <+:
              resultText name fs full.base.file := by
            rw [f2]
            conv => rhs; rw [← List.take_append_drop n t.items]
            have happ : ∀ a b : List (Pattern × Cnt), accepted cfg.measure cfg.minQuality cfg.extra target TP FP (a ++ b) =
                accepted cfg.measure cfg.minQuality cfg.extra target TP FP a ++ accepted cfg.measure cfg.minQuality cfg.extra target TP FP b := by
              intro a b; simp [accepted, List.filterMap_append]
            rw [happ, resultText_append, List.prefix_append_right_inj]
            rcases k5 with rfl | ⟨x, ts, x1, x2, x3⟩
            · exact List.nil_prefix
            · obtain ⟨q, q1, q2, q3⟩ := sjudge_some x2
              have hlt : n < t.items.length := (List.getElem?_eq_some_iff.1 x1).1
              have hd : t.items.drop n = x :: t.items.drop (n + 1) := by
                rw [List.drop_eq_getElem_cons hlt]
                rw [(List.getElem?_eq_some_iff.1 x1).2]
              have : accepted cfg.measure cfg.minQuality cfg.extra target TP FP (x :: t.items.drop (n + 1)) =
                  theLine target TP FP x q :: accepted cfg.measure cfg.minQuality cfg.extra target TP FP (t.items.drop (n + 1)) := by
                simp only [accepted, List.filterMap_cons, q1]
                rw [if_pos q2]
                rfl
              rw [hd, this]
              rw [q3] at x3
              refine x3.trans ?_
              simp [resultText]
          rcases k6 with ⟨D, B, g1, g2⟩ | ⟨g1, g2, g3, g4⟩
          · refine ⟨D, by rw [g1]; simp [shape], ?_⟩
            rw [stexts_flat] at g2
            simp only [List.nil_append] at g2
            exact (List.prefix_append D B).trans (g2 ▸ hsplit)
          · refine ⟨_, by rw [g4], ?_⟩
            rw [stexts_flat]
            simp only [List.nil_append, List.drop_nil, List.append_nil]
            rw [f2]

/-- **C79.** SDMapStar: a run that returns either has no frequent selector, and then nothing happens, or it leaves its file closed with exactly its lines (and, behind them, what an
earlier run that raised still had in its buffer, as far as it is longer). -/
theorem C79_star_done (cfg : SDMapStarConfig) (name : Str) (fs : Rat → Str) (df : Frame) (target : Str × Str) (st full : StarState)
    (hfit : cfg.fit st df target = .ok full) (o : SDMapObj) (hs : o.selected = st.base.selected) (hu : o.unselected = st.base.unselected) (sched : Nat → Nat) :
    let o' := SDMapObj.run sched 0 o (cfg.events name fs st.ks df target)
    let N := resultText name fs full.base.file
    o'.selected = full.base.selected ∧ o'.unselected = full.base.unselected ∧
    ((full = st ∧ o' = o) ∨
      (o'.out.handle = none ∧ (o.out.handle = none → o'.out.disk = some N) ∧
        ∀ p b, o.out.handle = some (p, b) → o'.out.disk = some (N ++ (if b = [] then [] else (List.replicate p '\x00' ++ b).drop N.length)))) := by
  intro o' N
  rcases star_cases cfg name fs df target st with ⟨h1, h2⟩ | ⟨e, -, h2⟩ | ⟨TP, FP, t, hT, h1, h2⟩
  · rw [hfit] at h2
    cases h2
    have : o' = o := by simp only [o', h1, SDMapObj.run]
    exact ⟨by rw [this, hs], by rw [this, hu], Or.inl ⟨rfl, this⟩⟩
  · rw [hfit] at h2; cases h2
  · rw [hfit] at h2
    unfold Trace.play at h2
    cases hfold : t.items.foldlM (cfg.toSDMapConfig.handle target TP FP) { st.base with file := [] } with
    | error e => rw [hfold] at h2; cases h2
    | ok r =>
      rw [hfold] at h2
      simp only at h2
      cases hout : t.out with
      | error e => rw [hout] at h2; cases h2
      | ok ks =>
        rw [hout] at h2
        simp only [Except.map, Except.ok.injEq] at h2
        obtain ⟨-, f2, f3, f4, f5⟩ := fold_handle_accepted _ _ _ _ _ _ _ hfold
        rw [← h2] at f2 f3 f4
        rw [List.nil_append] at f2
        simp only at f3 f4
        have hfin : t.fin = [.file .close] := by unfold Trace.fin; rw [hout]
        have h3 : o' = SDMapObj.run sched 1 ⟨o.selected, o.unselected, shape (stale o.out.handle) [] []⟩ (judgedEvents (cfg.judge name fs target TP FP) t.fin t.items) := by
          simp only [o', h1, SDMapObj.run, SDMapObj.step]
          rw [open_shape]
        rcases judged_done (cfg.judge name fs target TP FP) t.fin t.isFin (stale o.out.handle) sched t.items 1
          ⟨o.selected, o.unselected, shape (stale o.out.handle) [] []⟩ [] [] rfl with ⟨n, x, e, k1, k2, -⟩ | ⟨k1, k2, k3, k4⟩
        · obtain ⟨r', hr'⟩ := (sjudge_ok (name := name) (fs := fs) (target := target)).2 (f5 x (List.mem_of_getElem? k1))
          rw [k2] at hr'
          cases hr'
        · rw [← h3] at k2 k3 k4
          rw [stexts, List.length_map] at k2
          simp only at k2 k3
          have hsel : o'.selected = full.base.selected := by rw [k2, f3, hs]
          refine ⟨hsel, by omega, Or.inr ?_⟩
          rcases k4 with ⟨e, D, B, k5, -⟩ | ⟨-, k5⟩
          · rw [hfin] at k5; simp at k5
          · rw [stexts_flat, ← f2] at k5
            simp only [List.nil_append] at k5
            refine ⟨by rw [k5], ?_, ?_⟩
            · intro h0
              rw [k5, h0]
              simp [stale, N]
            · intro p b hpb
              rw [k5, hpb]
              simp only [stale, N]
              by_cases hb : b = []
              · rw [if_pos hb, if_pos hb]; simp
              · rw [if_neg hb, if_neg hb]

/-- **C79.** SDMapStar: a run that raises does so before the file is opened, and then nothing has happened, or it leaves the file open, with exactly the lines of the accepted
ones among the descriptions handled before, part of them still in the buffer; these count. -/
theorem C79_star_raise (cfg : SDMapStarConfig) (name : Str) (fs : Rat → Str) (df : Frame) (target : Str × Str) (st : StarState) (e : PyErr)
    (hfit : cfg.fit st df target = .error e) (o : SDMapObj) (ho : o.out.handle = none) (sched : Nat → Nat) :
    let o' := SDMapObj.run sched 0 o (cfg.events name fs st.ks df target)
    o' = o ∨ ∃ TP FP calls D B, Totals df target TP FP ∧
      (∀ x ∈ calls, ∃ q, cfg.measure (paramsFor x.2.1 x.2.2 TP FP cfg.extra) = .ok q) ∧
      o'.selected = o.selected + (accepted cfg.measure cfg.minQuality cfg.extra target TP FP calls).length ∧
      o'.selected + o'.unselected = o.selected + o.unselected + calls.length ∧
      D ++ B = resultText name fs (accepted cfg.measure cfg.minQuality cfg.extra target TP FP calls) ∧
      o'.out = ⟨some D, some (D.length, B)⟩ := by
  intro o'
  rcases star_cases cfg name fs df target st with ⟨-, h2⟩ | ⟨e', h1, -⟩ | ⟨TP, FP, t, hT, h1, h2⟩
  · rw [hfit] at h2; cases h2
  · left
    simp only [o', h1, SDMapObj.run, SDMapObj.step]
  · right
    have h3 : o' = SDMapObj.run sched 1 ⟨o.selected, o.unselected, shape [] [] []⟩ (judgedEvents (cfg.judge name fs target TP FP) t.fin t.items) := by
      simp only [o', h1, SDMapObj.run, SDMapObj.step]
      rw [open_shape, ho]
      rfl
    have hfj := fold_judge (fun st x => sjudge_handle cfg name fs target TP FP st x) t.items { st.base with file := [] }
    rcases judged_done (cfg.judge name fs target TP FP) t.fin t.isFin [] sched t.items 1
      ⟨o.selected, o.unselected, shape [] [] []⟩ [] [] rfl with ⟨n, x, e', k1, k2, k3, k4, k5, D, B, k6, k7⟩ | ⟨k1, k2, k3, k4⟩
    · rw [← h3] at k4 k5 k6
      rw [stexts, List.length_map] at k4
      have hlt : n < t.items.length := (List.getElem?_eq_some_iff.1 k1).1
      have hlen : (t.items.take n).length = n := by rw [List.length_take]; omega
      exact ⟨TP, FP, t.items.take n, D, B, hT, fun v hv => sjudge_ok.1 (k3 v hv), k4, by rw [k5, hlen], by rw [k7, stexts_flat]; simp, by rw [k6]; simp [shape]⟩
    · rw [← h3] at k2 k3 k4
      rw [stexts, List.length_map] at k2
      rcases k4 with ⟨e3, D, B, -, k6, k7⟩ | ⟨k5, -⟩
      · exact ⟨TP, FP, t.items, D, B, hT, fun v hv => sjudge_ok.1 (k1 v hv), k2, k3, by rw [k7, stexts_flat]; simp, by rw [k6]; simp [shape]⟩
      · exfalso
        unfold Trace.play at h2
        rw [hfit] at h2
        cases hfold : t.items.foldlM (cfg.toSDMapConfig.handle target TP FP) { st.base with file := [] } with
        | error e2 =>
          obtain ⟨m, y, g1, g2, g3⟩ := hfj.2 _ hfold
          obtain ⟨r', hr'⟩ := k1 y (List.mem_of_getElem? g1)
          rw [g2] at hr'
          cases hr'
        | ok r =>
          rw [hfold] at h2
          simp only at h2
          unfold Trace.fin at k5
          cases hout : t.out with
          | ok ks => rw [hout] at h2; cases h2
          | error e => rw [hout] at k5; simp at k5

end Star

/-! ### files written at the end of a search -/

theorem run_all (ts : List Str) (o : OutFile) (sched : Nat → Nat) :
    OutFile.run sched 0 o (.openW :: (ts.map .write ++ [.close])) = ⟨some (ts.flatten ++ (stale o.handle).drop ts.flatten.length), none⟩ := by
  simp only [OutFile.run]
  rw [open_shape]
  obtain ⟨D, B, e1, -, e3⟩ := OutFile.run_writes sched ts 1 (stale o.handle) [] []
  rw [OutFile.run_append, e3]
  simp only [List.nil_append] at e1
  simp only [OutFile.run, close_shape, e1]

/-- the file when nothing closes it -/
theorem run_open (ts : List Str) (o : OutFile) (ho : o.handle = none) (sched : Nat → Nat) :
    ∃ D B, OutFile.run sched 0 o (.openW :: ts.map .write) = ⟨some D, some (D.length, B)⟩ ∧ D ++ B = ts.flatten := by
  simp only [OutFile.run]
  rw [open_shape, ho]
  obtain ⟨D, B, e1, -, e3⟩ := OutFile.run_writes sched ts 1 (stale none) [] []
  refine ⟨D, B, ?_, by simpa using e1⟩
  rw [e3]
  simp [shape, stale]

theorem run_atEnd (texts : Except PyErr (List Str)) (N : Str) (o : OutFile) (ho : o.handle = none) (sched : Nat → Nat) :
    (∀ e, texts = .error e → ∀ j, OutFile.run sched 0 o ((writeAtEnd texts).take j) = o) ∧
    (∀ ts, texts = .ok ts → ts.flatten = N →
      OutFile.run sched 0 o (writeAtEnd texts) = ⟨some N, none⟩ ∧
      ∀ j, OutFile.run sched 0 o ((writeAtEnd texts).take j) = o ∨ ∃ D, (OutFile.run sched 0 o ((writeAtEnd texts).take j)).disk = some D ∧ D <+: N) := by
  refine ⟨fun e he j => ?_, fun ts hts hN => ?_⟩
  · subst he
    simp [writeAtEnd, OutFile.run]
  · subst hts hN
    refine ⟨?_, fun j => ?_⟩
    · show OutFile.run sched 0 o (.openW :: (ts.map .write ++ [.close])) = _
      rw [run_all, ho]
      simp [stale]
    · exact ops_prefix ts [.close] (Or.inr rfl) o ho sched j

/-- a BSD line as a line of the common form -/
def Spec.bsdLine (l : BSDLine) : ResultLine := ⟨l.subgroup, l.quality, l.tp, l.fp, l.TP, l.FP⟩

theorem bsd_texts (name : Str) (fs : Rat → Str) (ls : List BSDLine) : (ls.flatMap (BSDLine.parts name fs)).flatten = resultText name fs (ls.map bsdLine) := by
  induction ls with
  | nil => rfl
  | cons l ls ih =>
    rw [List.flatMap_cons, List.flatten_append, ih, List.map_cons]
    have : (l.parts name fs).flatten = lineText name fs (bsdLine l) := by
      rw [← parts_text]; rfl
    rw [this]
    simp [resultText]

/-- **C79.** BSD, CBSD and CPBSD: the file is written when the search is over. A search that raises leaves the earlier file as it was, at every moment; one that returns leaves the
file closed with exactly its lines, and on the way the disk has the earlier file or a first part of these. -/
theorem C79_bsd (cfg : BSDConfig) (name : Str) (fs : Rat → Str) (st : BSDState) (df : Frame) (target : Str × Str) (o : OutFile) (ho : o.handle = none)
    (sched : Nat → Nat) :
    (∀ e, cfg.fit st df target = .error e → ∀ j, OutFile.run sched 0 o ((cfg.ops name fs st df target).take j) = o) ∧
    (∀ full, cfg.fit st df target = .ok full →
      OutFile.run sched 0 o (cfg.ops name fs st df target) = ⟨some (resultText name fs (full.file.map bsdLine)), none⟩ ∧
      ∀ j, OutFile.run sched 0 o ((cfg.ops name fs st df target).take j) = o ∨
        ∃ D, (OutFile.run sched 0 o ((cfg.ops name fs st df target).take j)).disk = some D ∧ D <+: resultText name fs (full.file.map bsdLine)) := by
  unfold BSDConfig.ops
  refine ⟨fun e he => ?_, fun full hfull => ?_⟩
  · exact (run_atEnd _ [] o ho sched).1 e (by rw [he]; rfl)
  · exact (run_atEnd _ _ o ho sched).2 _ (by rw [hfull]; rfl) (bsd_texts name fs full.file)

/-- the line of IDSD for a subgroup -/
def Spec.idsdText (xs : XF → Str) (target : Str × Str) (e : IDSDEntry) : Str :=
  (⟨e.pat, ⟨target.1, .equal, .str target.2⟩⟩ : Subgroup).str ++ c!" ; Rank : " ++ natStr e.rank ++ c!" ; coverage : " ++ xs e.cred.cov ++ c!" ; odds_ratio : " ++ xs e.cred.odds ++
    c!" ; p_value : " ++ xs e.cred.pval ++ c!" ; absolute_contribution : " ++ xs e.cred.absC ++ c!" ; contribution_ratio : " ++ xs e.cred.ratioC ++ c!" ; \n"

theorem idsd_text (xs : XF → Str) (target : Str × Str) (e : IDSDEntry) : (e.parts xs target).flatten = idsdText xs target e := by
  have a1 : (c!" ; Rank : ") = c!" ; " ++ c!"Rank : " := rfl
  have a2 : (c!" ; coverage : ") = c!" ; " ++ c!"coverage : " := rfl
  have a3 : (c!" ; odds_ratio : ") = c!" ; " ++ c!"odds_ratio : " := rfl
  have a4 : (c!" ; p_value : ") = c!" ; " ++ c!"p_value : " := rfl
  have a5 : (c!" ; absolute_contribution : ") = c!" ; " ++ c!"absolute_contribution : " := rfl
  have a6 : (c!" ; contribution_ratio : ") = c!" ; " ++ c!"contribution_ratio : " := rfl
  have a7 : (c!" ; \n") = c!" ; " ++ c!"\n" := rfl
  unfold IDSDEntry.parts idsdText
  rw [a1, a2, a3, a4, a5, a6, a7]
  simp only [List.flatten_cons, List.flatten_nil, List.append_assoc, List.append_nil]

/-- **C79.** IDSD, in the same way. -/
theorem C79_idsd (cfg : IDSDConfig) (xs : XF → Str) (st : IDSDState) (df : Frame) (target : Str × Str) (o : OutFile) (ho : o.handle = none) (sched : Nat → Nat) :
    (∀ e, IDSD.fit cfg st df target = .error e → ∀ j, OutFile.run sched 0 o ((IDSD.ops cfg xs st df target).take j) = o) ∧
    (∀ full, IDSD.fit cfg st df target = .ok full →
      OutFile.run sched 0 o (IDSD.ops cfg xs st df target) = ⟨some (full.top.flatMap (idsdText xs target)), none⟩ ∧
      ∀ j, OutFile.run sched 0 o ((IDSD.ops cfg xs st df target).take j) = o ∨
        ∃ D, (OutFile.run sched 0 o ((IDSD.ops cfg xs st df target).take j)).disk = some D ∧ D <+: full.top.flatMap (idsdText xs target)) := by
  unfold IDSD.ops
  refine ⟨fun e he => ?_, fun full hfull => ?_⟩
  · exact (run_atEnd _ [] o ho sched).1 e (by rw [he]; rfl)
  · refine (run_atEnd _ _ o ho sched).2 _ (by rw [hfull]; rfl) ?_
    simp only
    induction full.top with
    | nil => rfl
    | cons e es ih => rw [List.flatMap_cons, List.flatten_append, ih, idsd_text, List.flatMap_cons]

/-! ### QFinder -/
section QF
open QFinder

/-- the line of QFinder for a pattern with these values -/
def Spec.qfText (xs : XF → Str) (target : Str × Str) (p : Pattern) (c : QFCred) : Str :=
  (⟨p, ⟨target.1, .equal, .str target.2⟩⟩ : Subgroup).str ++ c!" ; coverage: " ++ xs c.cov ++ c!" ; odds_ratio: " ++ xs c.odds ++ c!" ; p_value: " ++ xs c.pval ++
    c!" ; absolute_contribution: " ++ xs c.absC ++ c!" ; contribution_ratio: " ++ xs c.ratioC ++ c!" ; adjusted_p_value: " ++ xs c.adjP ++ c!" ; \n"

theorem qf_text (xs : XF → Str) (target : Str × Str) (p : Pattern) (c : QFCred) : (rowParts xs target p c).flatten = qfText xs target p c := by
  have a1 : (c!" ; coverage: ") = c!" ; " ++ c!"coverage: " := rfl
  have a2 : (c!" ; odds_ratio: ") = c!" ; " ++ c!"odds_ratio: " := rfl
  have a3 : (c!" ; p_value: ") = c!" ; " ++ c!"p_value: " := rfl
  have a4 : (c!" ; absolute_contribution: ") = c!" ; " ++ c!"absolute_contribution: " := rfl
  have a5 : (c!" ; contribution_ratio: ") = c!" ; " ++ c!"contribution_ratio: " := rfl
  have a6 : (c!" ; adjusted_p_value: ") = c!" ; " ++ c!"adjusted_p_value: " := rfl
  have a7 : (c!" ; \n") = c!" ; " ++ c!"\n" := rfl
  unfold rowParts qfText
  rw [a1, a2, a3, a4, a5, a6, a7]
  simp only [List.flatten_cons, List.flatten_nil, List.append_assoc, List.append_nil]

/-- the operations of `_to_file`: all the lines, or the lines before the first pattern without a row and the beginning of its line -/
theorem toFile_cases (xs : XF → Str) (target : Str × Str) (table : Dict QFCred) (f : Pattern → QFCred) (l : List Pattern)
    (h : ∀ p ∈ l, table.lookup p.str = none ∨ table.lookup p.str = some (f p)) :
    (∃ ts : List Str, toFileOps xs target table l = ts.map .write ++ [.close] ∧ (∀ p ∈ l, table.lookup p.str = some (f p)) ∧
      ts.flatten = l.flatMap (fun p => qfText xs target p (f p))) ∨
    (∃ (ts : List Str) (pre : List Pattern) (p : Pattern) (rest : List Pattern), toFileOps xs target table l = ts.map .write ∧ l = pre ++ p :: rest ∧
      (∀ q ∈ pre, table.lookup q.str = some (f q)) ∧ table.lookup p.str = none ∧
      ts.flatten = pre.flatMap (fun p => qfText xs target p (f p)) ++ (⟨p, ⟨target.1, .equal, .str target.2⟩⟩ : Subgroup).str ++ c!" ; ") := by
  induction l with
  | nil => exact Or.inl ⟨[], rfl, by simp, rfl⟩
  | cons p l ih =>
    unfold toFileOps
    rcases h p (by simp) with hp | hp
    · rw [hp]
      exact Or.inr ⟨[(⟨p, ⟨target.1, .equal, .str target.2⟩⟩ : Subgroup).str ++ c!" ; "], [], p, l, rfl, rfl, by simp, hp, by simp⟩
    · rw [hp]
      simp only
      rcases ih (fun q hq => h q (by simp [hq])) with ⟨ts, h1, h2, h3⟩ | ⟨ts, pre, q, rest, h1, h2, h3, h4, h5⟩
      · refine Or.inl ⟨rowParts xs target p (f p) ++ ts, by rw [h1]; simp, ?_, ?_⟩
        · intro q hq
          rcases List.mem_cons.1 hq with rfl | hq
          · exact hp
          · exact h2 q hq
        · rw [List.flatten_append, qf_text, h3, List.flatMap_cons]
      · refine Or.inr ⟨rowParts xs target p (f p) ++ ts, p :: pre, q, rest, by rw [h1]; simp, by rw [h2]; rfl, ?_, h4, ?_⟩
        · intro r hr
          rcases List.mem_cons.1 hr with rfl | hr
          · exact hp
          · exact h3 r hr
        · rw [List.flatten_append, qf_text, h5, List.flatMap_cons]
          simp only [List.append_assoc]

theorem toFile_ok (xs : XF → Str) (target : Str × Str) (table : Dict QFCred) (l : List Pattern) (rows : List (Str × QFCred)) (h : QFinder.fileLines table l = .ok rows) :
    ∃ ts : List Str, toFileOps xs target table l = ts.map .write ++ [.close] ∧ ts.flatten = (l.zip rows).flatMap (fun x => qfText xs target x.1 x.2.2) := by
  induction l generalizing rows with
  | nil =>
    simp only [QFinder.fileLines, Except.ok.injEq] at h
    subst h
    exact ⟨[], rfl, rfl⟩
  | cons p l ih =>
    unfold QFinder.fileLines at h
    cases hp : table.lookup p.str with
    | none => rw [hp] at h; cases h
    | some c =>
      rw [hp] at h
      simp only at h
      cases hl : QFinder.fileLines table l with
      | error e => rw [hl] at h; cases h
      | ok rest =>
        rw [hl] at h
        simp only [Except.ok.injEq] at h
        subst h
        obtain ⟨ts, h1, h2⟩ := ih rest hl
        refine ⟨rowParts xs target p c ++ ts, by unfold toFileOps; rw [hp]; simp only; rw [h1]; simp, ?_⟩
        rw [List.flatten_append, qf_text, h2]
        simp

section
open Classical
variable {cfg : QFConfig} {df df2 : Frame} {target : Str × Str}

/-- **C79.** QFinder, `fit`: the file is written at the end. A run that raises leaves the earlier file as it was; one that returns leaves the file closed with exactly one line for
each reported pattern, and on the way the disk has the earlier file or a first part of these. -/
theorem C79_qfinder_fit (hf : NominalFrame df target) (hs : SafeTexts df target) (hnum : 1 ≤ cfg.num)
    (hp : ∀ X, Describes target X → OccursIn df X → glmPOf cfg df target X ≠ .nan) (st : QFState) (xs : XF → Str) (o : OutFile) (ho : o.handle = none) (sched : Nat → Nat) :
    (∀ e, fit cfg st df target = .error e → ∀ j, OutFile.run sched 0 o ((fitOps cfg xs st df target).take j) = o) ∧
    ∀ st', fit cfg st df target = .ok st' →
      OutFile.run sched 0 o (fitOps cfg xs st df target) = ⟨some (st'.top.flatMap (fun e => qfText xs target e.pat e.cred)), none⟩ ∧
      ∀ j, OutFile.run sched 0 o ((fitOps cfg xs st df target).take j) = o ∨
        ∃ D, (OutFile.run sched 0 o ((fitOps cfg xs st df target).take j)).disk = some D ∧ D <+: st'.top.flatMap (fun e => qfText xs target e.pat e.cred) := by
  refine ⟨fun e he j => by simp [fitOps, he, OutFile.run], fun st' h => ?_⟩
  obtain ⟨h1, -⟩ := C60_files hf hs hnum hp h hf (fun a ha => ha)
  obtain ⟨ts, e1, e2⟩ := toFile_ok xs target _ _ _ h1
  have e3 : fitOps cfg xs st df target = .openW :: (ts.map .write ++ [.close]) := by
    unfold fitOps
    rw [h]
    simp only
    rw [e1]
  have e4 : ts.flatten = st'.top.flatMap (fun e => qfText xs target e.pat e.cred) := by
    rw [e2]
    generalize st'.top = l
    induction l with
    | nil => rfl
    | cons e es ih => simp only [List.map_cons, List.zip_cons_cons, List.flatMap_cons, ih]
  rw [e3, ← e4]
  refine ⟨?_, fun j => ops_prefix ts [.close] (Or.inr rfl) o ho sched j⟩
  rw [run_all, ho]
  simp [stale]

/-- **C79.** QFinder, `test_subgroups` with a file: when it raises before the file, the file is as it was. When all the reported patterns occur in the test data, the file is closed with
one line for each, with its values on the test data. When some pattern does not occur there, the method raises in the middle of the file and leaves it open: the lines before the
first such pattern and the beginning of its line, part of it still in the buffer. -/
theorem C79_qfinder_test (hf : NominalFrame df target) (hs : SafeTexts df target) (hnum : 1 ≤ cfg.num)
    (hp : ∀ X, Describes target X → OccursIn df X → glmPOf cfg df target X ≠ .nan) {st st' : QFState} (h : fit cfg st df target = .ok st')
    (hf2 : NominalFrame df2 target) (hcols : ∀ a ∈ df.cols.map (·.1), a ∈ df2.cols.map (·.1)) (xs : XF → Str) (o : OutFile) (ho : o.handle = none) (sched : Nat → Nat) :
    (∀ e, testSubgroups cfg st' df2 target = .error e → OutFile.run sched 0 o (testOps cfg xs st' df2 target) = o) ∧
    ∀ t, testSubgroups cfg st' df2 target = .ok t →
      ((∀ e ∈ st'.top, OccursIn df2 e.pat.sels) → testFile cfg st' df2 target ≠ .error .keyError ∧ OutFile.run sched 0 o (testOps cfg xs st' df2 target) =
        ⟨some (st'.top.flatMap (fun e => qfText xs target e.pat (qfEntryOf cfg df2 target st'.top.length e.pat).cred)), none⟩) ∧
      ((∃ e ∈ st'.top, ¬ OccursIn df2 e.pat.sels) → testFile cfg st' df2 target = .error .keyError ∧
        ∃ pre p rest D B, st'.top.map (·.pat) = pre ++ p :: rest ∧ (∀ q ∈ pre, OccursIn df2 q.sels) ∧ ¬ OccursIn df2 p.sels ∧
          D ++ B = pre.flatMap (fun q => qfText xs target q (qfEntryOf cfg df2 target ((st'.top.map (·.pat)).filter (fun p => decide (OccursIn df2 p.sels))).length q).cred) ++
            (⟨p, ⟨target.1, .equal, .str target.2⟩⟩ : Subgroup).str ++ c!" ; " ∧
          OutFile.run sched 0 o (testOps cfg xs st' df2 target) = ⟨some D, some (D.length, B)⟩) := by
  refine ⟨fun e he => by simp [testOps, he, OutFile.run], fun t ht => ?_⟩
  obtain ⟨-, c2, c3⟩ := C60_files hf hs hnum hp h hf2 hcols
  obtain ⟨h1, h2⟩ := top_facts hf hs hnum hp h
  have e2 := testSubgroups_eq (cfg := cfg) hf2 h1 (fun p hp => (h2 p hp).1) (fun p hp => ⟨(h2 p hp).2.1, fun s hs =>
    ⟨((h2 p hp).2.2.1 s hs).1, hcols _ ((h2 p hp).2.2.1 s hs).2⟩⟩)
  refine ⟨fun hall => ?_, fun hmiss => ⟨c2 hmiss, ?_⟩⟩
  · have h3 := c3 hall ⟨t, ht⟩
    refine ⟨by rw [h3]; simp, ?_⟩
    have h4 : QFinder.fileLines t (st'.top.map (·.pat)) = .ok (st'.top.map (fun e => (e.pat.str, (qfEntryOf cfg df2 target st'.top.length e.pat).cred))) := by
      unfold testFile at h3
      rw [ht] at h3
      exact h3
    obtain ⟨ts, e1, e5⟩ := toFile_ok xs target _ _ _ h4
    have e3 : testOps cfg xs st' df2 target = .openW :: (ts.map .write ++ [.close]) := by
      unfold testOps
      rw [ht]
      simp only
      rw [e1]
    have e4 : ts.flatten = st'.top.flatMap (fun e => qfText xs target e.pat (qfEntryOf cfg df2 target st'.top.length e.pat).cred) := by
      rw [e5]
      generalize st'.top.length = n
      generalize st'.top = l
      induction l with
      | nil => rfl
      | cons e es ih => simp only [List.map_cons, List.zip_cons_cons, List.flatMap_cons, ih]
    rw [e3, ← e4, run_all, ho]
    simp [stale]
  · by_cases hh : ∀ p ∈ occurring df2 (st'.top.map (·.pat)), 2 ≤ p.len → ∀ s ∈ p.sels, p.copy.remove s ∈ occurring df2 (st'.top.map (·.pat))
    swap
    · rw [if_neg hh, ht] at e2; cases e2
    rw [if_pos hh, ht] at e2
    injection e2 with e2
    subst e2
    have hTn := occurring_nodup (df := df2) h1
    have hTr : ∀ p ∈ occurring df2 (st'.top.map (·.pat)), Readable p := fun p hp => (h2 p (mem_occurring.1 hp).1).1
    have hlook : ∀ p ∈ st'.top.map (·.pat), (OccursIn df2 p.sels ∧
        List.lookup p.str ((occurring df2 (st'.top.map (·.pat))).map (fun p => (p.str, (qfEntryOf cfg df2 target (occurring df2 (st'.top.map (·.pat))).length p).cred))) =
          some (qfEntryOf cfg df2 target (occurring df2 (st'.top.map (·.pat))).length p).cred) ∨
        (¬ OccursIn df2 p.sels ∧
        List.lookup p.str ((occurring df2 (st'.top.map (·.pat))).map (fun p => (p.str, (qfEntryOf cfg df2 target (occurring df2 (st'.top.map (·.pat))).length p).cred))) = none) := by
      intro p hp'
      by_cases ho : OccursIn df2 p.sels
      · exact Or.inl ⟨ho, lookup_str hTn hTr (fun p => (qfEntryOf cfg df2 target (occurring df2 (st'.top.map (·.pat))).length p).cred) (mem_occurring.2 ⟨hp', ho⟩)⟩
      · exact Or.inr ⟨ho, lookup_str_none hTr (fun p => (qfEntryOf cfg df2 target (occurring df2 (st'.top.map (·.pat))).length p).cred) (h2 p hp').1
          (fun hm => ho (mem_occurring.1 hm).2)⟩
    rcases toFile_cases xs target _ (fun p => (qfEntryOf cfg df2 target (occurring df2 (st'.top.map (·.pat))).length p).cred) (st'.top.map (·.pat))
      (fun p hp' => (hlook p hp').elim (fun h => Or.inr h.2) (fun h => Or.inl h.2)) with ⟨ts, -, g2, -⟩ | ⟨ts, pre, p, rest, g1, g2, g3, g4, g5⟩
    · exfalso
      obtain ⟨e, he, hne⟩ := hmiss
      rcases hlook e.pat (List.mem_map_of_mem he) with hl | hl
      · exact hne hl.1
      · have := g2 e.pat (List.mem_map_of_mem he)
        rw [hl.2] at this
        cases this
    · obtain ⟨D, B, r1, r2⟩ := run_open ts o ho sched
      refine ⟨pre, p, rest, D, B, g2, ?_, ?_, ?_, ?_⟩
      · intro q hq
        rcases hlook q (by rw [g2]; simp [hq]) with hl | hl
        · exact hl.1
        · have := g3 q hq
          rw [hl.2] at this
          cases this
      · rcases hlook p (by rw [g2]; simp) with hl | hl
        · rw [hl.2] at g4
          cases g4
        · exact hl.1
      · rw [r2, g5]; rfl
      · have : testOps cfg xs st' df2 target = .openW :: ts.map .write := by
          unfold testOps
          rw [ht]
          simp only
          rw [g1]
        rw [this, r1]

end

end QF

/-! ### SDIGA -/
section SDIGAFiles
open SDIGA

namespace Spec

/-- the line of SDIGA for a subgroup -/
def sdigaText (fs : Rat → Str) (l : SDIGALine) : Str :=
  l.subgroup.str ++ c!" ; Quality Measure Fitness = " ++ fs l.fitness ++ c!" ; tp = " ++ natStr l.tp ++ c!" ; fp = " ++ natStr l.fp ++ c!" ; TP = " ++ natStr l.TP ++
    c!" ; FP = " ++ natStr l.FP ++ c!" ; unchecked_tp = " ++ natStr l.utp ++ c!" ; unchecked_fp = " ++ natStr l.ufp ++ c!" ; TP_unchecked = " ++ natStr l.TPu ++
    c!" ; FP_unchecked = " ++ natStr l.FPu ++ c!"\n"

/-- `n` turns of the loop that each find a subgroup -/
inductive Turns (cfg : SDIGAConfig) (rows : List ERow) (target : Str × Str) (dict : List (Str × List Val)) (o : Nat → SDIGAChoice) : Nat → SDIGAState → Nat → SDIGAState → Prop
  | nil (k : Nat) (st : SDIGAState) : Turns cfg rows target dict o k st 0 st
  | cons {k : Nat} {st st1 st2 : SDIGAState} {n : Nat} : turn cfg rows target dict (o k) st = .ok (st1, true) → Turns cfg rows target dict o (k + 1) st1 n st2 →
      Turns cfg rows target dict o k st (n + 1) st2

end Spec

theorem sdiga_text (fs : Rat → Str) (l : SDIGALine) : (l.parts fs).flatten = sdigaText fs l := by
  have a1 : (c!" ; Quality Measure Fitness = ") = c!" ; " ++ c!"Quality Measure Fitness = " := rfl
  have a2 : (c!" ; tp = ") = c!" ; " ++ c!"tp = " := rfl
  have a3 : (c!" ; fp = ") = c!" ; " ++ c!"fp = " := rfl
  have a4 : (c!" ; TP = ") = c!" ; " ++ c!"TP = " := rfl
  have a5 : (c!" ; FP = ") = c!" ; " ++ c!"FP = " := rfl
  have a6 : (c!" ; unchecked_tp = ") = c!" ; " ++ c!"unchecked_tp = " := rfl
  have a7 : (c!" ; unchecked_fp = ") = c!" ; " ++ c!"unchecked_fp = " := rfl
  have a8 : (c!" ; TP_unchecked = ") = c!" ; " ++ c!"TP_unchecked = " := rfl
  have a9 : (c!" ; FP_unchecked = ") = c!" ; " ++ c!"FP_unchecked = " := rfl
  unfold SDIGALine.parts sdigaText
  rw [a1, a2, a3, a4, a5, a6, a7, a8, a9]
  simp only [List.flatten_cons, List.flatten_nil, List.append_assoc, List.append_nil]

theorem sdiga_texts (fs : Rat → Str) (ls : List SDIGALine) : (ls.flatMap (SDIGALine.parts fs)).flatten = ls.flatMap (sdigaText fs) := by
  induction ls with
  | nil => rfl
  | cons l ls ih => rw [List.flatMap_cons, List.flatten_append, ih, sdiga_text, List.flatMap_cons]

/-- a turn adds its line, if it goes on -/
theorem turn_file {cfg : SDIGAConfig} (hw : cfg.write = true) {rows : List ERow} {target : Str × Str} {dict : List (Str × List Val)} {c : SDIGAChoice} {st st' : SDIGAState} {b : Bool}
    (h : turn cfg rows target dict c st = .ok (st', b)) :
    (b = false → st'.file = st.file) ∧ (b = true → ∃ l, st'.file = st.file ++ [l]) := by
  unfold turn at h
  cases h1 : evolve cfg st rows target.2 dict c with
  | error e => rw [h1] at h; cases h
  | ok best =>
    rw [h1] at h
    simp only [bind, Except.bind] at h
    cases h2 : localSearch cfg { st with unselected := st.unselected + 2 * cfg.maxGen + (cfg.popSize - 1) } rows target.2 best.genes with
    | error e => rw [h2] at h; cases h
    | ok r =>
      obtain ⟨chrom, conf, fit, tp, fp⟩ := r
      rw [h2] at h
      simp only at h
      cases h3 : decode (chromDict dict) chrom with
      | error e => rw [h3] at h; cases h
      | ok last =>
        rw [h3] at h
        simp only [hw, if_true, pure, Except.pure] at h
        split at h
        · cases h; exact ⟨fun _ => rfl, fun h => by cases h⟩
        · split at h
          · cases h; exact ⟨fun _ => rfl, fun h => by cases h⟩
          · cases h; exact ⟨fun h => (by cases h), fun _ => ⟨_, rfl⟩⟩

theorem loopOps_cases {cfg : SDIGAConfig} (hw : cfg.write = true) (fs : Rat → Str) (rows : List ERow) (target : Str × Str) (dict : List (Str × List Val)) (o : Nat → SDIGAChoice)
    (fuel k : Nat) (st : SDIGAState) :
    ∃ (n : Nat) (st1 : SDIGAState) (L : List SDIGALine), Turns cfg rows target dict o k st n st1 ∧ n ≤ fuel ∧ st1.file = st.file ++ L ∧ L.length = n ∧
      ((∃ st', loop cfg rows target dict o fuel k st = some (.ok st') ∧ st'.file = st.file ++ L ∧
          loopOps cfg fs rows target dict o fuel k st = (L.flatMap (SDIGALine.parts fs)).map .write ++ [.close]) ∨
       (∃ e, loop cfg rows target dict o fuel k st = some (.error e) ∧ turn cfg rows target dict (o (k + n)) st1 = .error e ∧
          loopOps cfg fs rows target dict o fuel k st = (L.flatMap (SDIGALine.parts fs)).map .write) ∨
       (loop cfg rows target dict o fuel k st = none ∧ n = fuel ∧ loopOps cfg fs rows target dict o fuel k st = (L.flatMap (SDIGALine.parts fs)).map .write)) := by
  induction fuel generalizing k st with
  | zero => exact ⟨0, st, [], .nil _ _, Nat.le_refl _, by simp, rfl, Or.inr (Or.inr ⟨rfl, rfl, rfl⟩)⟩
  | succ fuel ih =>
    unfold loop loopOps
    cases ht : turn cfg rows target dict (o k) st with
    | error e => exact ⟨0, st, [], .nil _ _, Nat.zero_le _, by simp, rfl, Or.inr (Or.inl ⟨e, rfl, ht, rfl⟩)⟩
    | ok r =>
      obtain ⟨st', b⟩ := r
      obtain ⟨f1, f2⟩ := turn_file hw ht
      cases b with
      | false =>
        have hf := f1 rfl
        refine ⟨0, st, [], .nil _ _, Nat.zero_le _, by simp, rfl, Or.inl ⟨st', rfl, by simp [hf], ?_⟩⟩
        simp [hf]
      | true =>
        obtain ⟨l, hl⟩ := f2 rfl
        obtain ⟨n, st1, L, g1, g2, g3, g4, g5⟩ := ih (k + 1) st'
        have hd : st'.file.drop st.file.length = [l] := by rw [hl]; simp
        have hap : st.file ++ [l] ++ L = st.file ++ (l :: L) := by simp
        refine ⟨n + 1, st1, l :: L, .cons ht g1, by omega, by rw [g3, hl, hap], by simp [g4], ?_⟩
        simp only [hd]
        rcases g5 with ⟨s, k1, k2, k3⟩ | ⟨e, k1, k2, k3⟩ | ⟨k1, k2, k3⟩
        · refine Or.inl ⟨s, k1, by rw [k2, hl, hap], by rw [k3]; simp⟩
        · refine Or.inr (Or.inl ⟨e, k1, by rw [← k2]; congr 2; omega, by rw [k3]; simp⟩)
        · exact Or.inr (Or.inr ⟨k1, by omega, by rw [k3]; simp⟩)

/-- **C79.** SDIGA with a file, whatever the choices of the genetic algorithm. A run that returns leaves the file closed with exactly its lines, and on the way the disk has the earlier
file or a first part of these. A run that raises does so before the file is opened, or it leaves the file open with exactly one line for each turn completed before; the same
holds while the loop goes on. -/
theorem C79_sdiga (cfg : SDIGAConfig) (hw : cfg.write = true) (fs : Rat → Str) (c : Nat → SDIGAChoice) (fuel : Nat) (st : SDIGAState) (df : Frame) (target : Str × Str)
    (o : OutFile) (ho : o.handle = none) (sched : Nat → Nat) :
    (∀ st', SDIGA.fit cfg c fuel st df target = some (.ok st') →
      OutFile.run sched 0 o (SDIGA.ops cfg fs c fuel st df target) = ⟨some (st'.file.flatMap (sdigaText fs)), none⟩ ∧
      ∀ j, OutFile.run sched 0 o ((SDIGA.ops cfg fs c fuel st df target).take j) = o ∨
        ∃ D, (OutFile.run sched 0 o ((SDIGA.ops cfg fs c fuel st df target).take j)).disk = some D ∧ D <+: st'.file.flatMap (sdigaText fs)) ∧
    ((∀ st', SDIGA.fit cfg c fuel st df target ≠ some (.ok st')) →
      OutFile.run sched 0 o (SDIGA.ops cfg fs c fuel st df target) = o ∨
      ∃ tcol st0 n st1 D B, df.cols.lookup target.1 = some tcol ∧ .str target.2 ∈ tcol ∧ st0.file = [] ∧ st0.cases = [] ∧ st0.unchecked = encodeRows df target.1 tcol ∧
        Totals df target st0.TP st0.FP ∧ st0.TPu = st0.TP ∧ st0.FPu = st0.FP ∧
        Turns cfg (encodeRows df target.1 tcol) target (encodeDict df target.1) c 0 st0 n st1 ∧ st1.file.length = n ∧
        (SDIGA.fit cfg c fuel st df target = none → n = fuel) ∧
        (∀ e, SDIGA.fit cfg c fuel st df target = some (.error e) → turn cfg (encodeRows df target.1 tcol) target (encodeDict df target.1) (c n) st1 = .error e) ∧
        D ++ B = st1.file.flatMap (sdigaText fs) ∧
        OutFile.run sched 0 o (SDIGA.ops cfg fs c fuel st df target) = ⟨some D, some (D.length, B)⟩) := by
  by_cases hn : df.nominal = true
  swap
  · have hn' : df.nominal = false := by simpa using hn
    simp [SDIGA.fit, SDIGA.ops, hn', OutFile.run]
  cases hc : df.col target.1 with
  | error e => simp [SDIGA.fit, SDIGA.ops, hn, hc, OutFile.run]
  | ok tcol =>
    by_cases ha : tcol.any (fun v => v.eq (.str target.2)) = true
    swap
    · have ha' : tcol.any (fun v => v.eq (.str target.2)) = false := by simpa using ha
      simp [SDIGA.fit, SDIGA.ops, hn, hc, ha', OutFile.run]
    have hl : df.cols.lookup target.1 = some tcol := by
      unfold Frame.col at hc
      cases hl : df.cols.lookup target.1 with
      | none => rw [hl] at hc; cases hc
      | some x => rw [hl] at hc; cases hc; rfl
    obtain ⟨v, hv1, hv2⟩ := List.any_eq_true.1 ha
    have hmem : .str target.2 ∈ tcol := by
      cases v with
      | str x =>
        have : x = target.2 := by simpa [Val.eq] using hv2
        rw [← this]; exact hv1
      | _ => simp [Val.eq] at hv2
    obtain ⟨n, st1, L, g1, g2, g3, g4, g5⟩ := loopOps_cases hw fs (encodeRows df target.1 tcol) target (encodeDict df target.1) c fuel 0
      { st with file := [], cases := [], unchecked := encodeRows df target.1 tcol, TP := tcol.countP (fun v => v.eq (.str target.2)),
                FP := df.nrows - tcol.countP (fun v => v.eq (.str target.2)), TPu := tcol.countP (fun v => v.eq (.str target.2)),
                FPu := df.nrows - tcol.countP (fun v => v.eq (.str target.2)) }
    have hfit : SDIGA.fit cfg c fuel st df target = loop cfg (encodeRows df target.1 tcol) target (encodeDict df target.1) c fuel 0
      { st with file := [], cases := [], unchecked := encodeRows df target.1 tcol, TP := tcol.countP (fun v => v.eq (.str target.2)),
                FP := df.nrows - tcol.countP (fun v => v.eq (.str target.2)), TPu := tcol.countP (fun v => v.eq (.str target.2)),
                FPu := df.nrows - tcol.countP (fun v => v.eq (.str target.2)) } := by
      simp only [SDIGA.fit, hn, hc, ha, hw, Bool.not_true, Bool.false_eq_true, if_false, if_true]
    have hops : SDIGA.ops cfg fs c fuel st df target = .openW :: loopOps cfg fs (encodeRows df target.1 tcol) target (encodeDict df target.1) c fuel 0
      { st with file := [], cases := [], unchecked := encodeRows df target.1 tcol, TP := tcol.countP (fun v => v.eq (.str target.2)),
                FP := df.nrows - tcol.countP (fun v => v.eq (.str target.2)), TPu := tcol.countP (fun v => v.eq (.str target.2)),
                FPu := df.nrows - tcol.countP (fun v => v.eq (.str target.2)) } := by
      simp only [SDIGA.ops, hn, hc, ha, Bool.not_true, Bool.false_eq_true, if_false]
    rw [← hfit] at g5
    simp only [List.nil_append] at g3 g5
    refine ⟨fun st' hst => ?_, fun hno => Or.inr ?_⟩
    · rcases g5 with ⟨s, k1, k2, k3⟩ | ⟨e, k1, -⟩ | ⟨k1, -⟩
      · rw [hst] at k1
        cases k1
        rw [hops, k3, k2, ← sdiga_texts]
        refine ⟨?_, fun j => ops_prefix _ [.close] (Or.inr rfl) o ho sched j⟩
        rw [run_all, ho]
        simp [stale]
      · rw [hst] at k1; cases k1
      · rw [hst] at k1; cases k1
    · obtain ⟨D, B, r1, r2⟩ := run_open (L.flatMap (SDIGALine.parts fs)) o ho sched
      refine ⟨tcol, _, n, st1, D, B, hl, hmem, rfl, rfl, rfl, ⟨tcol, hl, rfl, rfl⟩, rfl, rfl, g1, by rw [g3, g4], ?_, ?_, by rw [r2, sdiga_texts, g3], ?_⟩
      · intro hnone
        rcases g5 with ⟨s, k1, -⟩ | ⟨e, k1, -⟩ | ⟨-, k2, -⟩
        · exact absurd k1 (hno s)
        · rw [hnone] at k1; cases k1
        · exact k2
      · intro e he
        rcases g5 with ⟨s, k1, -⟩ | ⟨e', k1, k2, -⟩ | ⟨k1, -, -⟩
        · exact absurd k1 (hno s)
        · rw [he] at k1
          cases k1
          rw [Nat.zero_add] at k2
          exact k2
        · rw [he] at k1; cases k1
      · rw [hops]
        rcases g5 with ⟨s, k1, -⟩ | ⟨e', k1, k2, k3⟩ | ⟨k1, -, k3⟩
        · exact absurd k1 (hno s)
        · rw [k3, r1]
        · rw [k3, r1]

end SDIGAFiles

/-! ### concrete runs -/

namespace FileRuns

def fs0 : Rat → Str := fun _ => c!"q"
def ss0 : Bits → Str := fun b => b.map (fun x => if x then '1' else '0')
def x0 : XF → Str := fun _ => c!"q"
def oldObj : SDMapObj := ⟨3, 4, ⟨some c!"old", none⟩⟩

/-- the first `j` events of a run of VLSD on an object with an earlier file, five characters being handed over after each operation -/
def vEx (m : Measure) (df : Frame) (target : Str × Str) (j : Nat) : SDMapObj :=
  SDMapObj.run (fun _ => 5) 0 oldObj
    (((VLSDConfig.new m.compute 0 Measure.wraccOE1.compute (-1) [] [] .noOrder .noOrder).events .bitsets c!"M" c!"E" fs0 ss0 df target).take j)

def sEx (m : Measure) (df : Frame) : SDMapObj :=
  SDMapObj.run (fun _ => 5) 0 oldObj ((starCfg m.compute Measure.wraccOE1.compute).events c!"M" fs0 [] df (c!"t", c!"y"))

/-- a part of a run, a complete run, a run whose target does not exist (the earlier file is lost) -/
example : (vEx .wracc smallFrame (c!"t", c!"y") 4).out.disk = some c!"Description: [a" ∧
    vEx .wracc smallFrame (c!"t", c!"y") 1000 = ⟨4, 5, ⟨some c!"Description: [a = 'x'], Target: t = 'y' ; Sequence of instances tp = 10 ; Sequence of instances fp = 00 ; Quality Measure M = q ; Optimistic Estimate E = q ; tp = 1 ; fp = 0 ; TP = 1 ; FP = 1\n", none⟩⟩ ∧
    vEx .wracc smallFrame (c!"nope", c!"y") 1000 = ⟨3, 4, ⟨some [], some (0, [])⟩⟩ := by decide +kernel

/-- NPV raises on a description of all rows: two lines, most of them in the buffer -/
example : (vEx .npv constFrame (c!"t", c!"y") 1000).selected = 5 ∧
    (vEx .npv constFrame (c!"t", c!"y") 1000).out.disk = some c!"Description: [a = 'x'], Target: t = 'y' ; Sequence of instances tp = 1000 ; Sequence of in" ∧
    ((vEx .npv constFrame (c!"t", c!"y") 1000).out.handle.map (·.2.length)) = some 302 := by decide +kernel

example : sEx .wracc smallFrame = ⟨4, 4, ⟨some c!"Description: [a = 'x'], Target: t = 'y' ; Quality Measure M = q ; tp = 1 ; fp = 0 ; TP = 1 ; FP = 1\n", none⟩⟩ ∧
    sEx .npv constFrame = ⟨3, 4, ⟨some [], some (0, [])⟩⟩ := by decide +kernel

/-- SDIGA: one line; after one turn the loop still runs -/
example : OutFile.run (fun _ => 5) 0 ⟨some c!"old", none⟩ (SDIGA.ops sdigaDemoCfg fs0 (fun _ => sdigaDemoChoice) 20 ⟨0, 0, [], [], [], 0, 0, 0, 0⟩ demoFrame (c!"t", c!"yes")) =
      ⟨some c!"Description: [a = 'y'], Target: t = 'yes' ; Quality Measure Fitness = q ; tp = 1 ; fp = 0 ; TP = 2 ; FP = 2 ; unchecked_tp = 1 ; unchecked_fp = 0 ; TP_unchecked = 2 ; FP_unchecked = 2\n", none⟩ ∧
    (OutFile.run (fun _ => 5) 0 ⟨some c!"old", none⟩ (SDIGA.ops sdigaDemoCfg fs0 (fun _ => sdigaDemoChoice) 1 ⟨0, 0, [], [], [], 0, 0, 0, 0⟩ demoFrame (c!"t", c!"yes"))).disk =
      some c!"Description: [a = 'y'], Target: t = 'yes' ; Qualit" := by decide +kernel

example : OutFile.run (fun _ => 5) 0 ⟨some c!"old", none⟩ ((bsdCfg .bsd 2 2).ops c!"M" fs0 .fresh demoFrame (c!"t", c!"yes")) =
      ⟨some c!"Description: [b = 'p'], Target: t = 'yes' ; Quality Measure M = q ; tp = 2 ; fp = 1 ; TP = 2 ; FP = 2\nDescription: [a = 'y'], Target: t = 'yes' ; Quality Measure M = q ; tp = 1 ; fp = 0 ; TP = 2 ; FP = 2\n", none⟩ ∧
    OutFile.run (fun _ => 5) 0 ⟨some c!"old", none⟩ ((bsdCfg .bsd 2 2).ops c!"M" fs0 .fresh demoFrame (c!"nope", c!"yes")) = ⟨some c!"old", none⟩ := by decide +kernel

/-- the test data has no row with `a = 'w'`: two lines and the beginning of the third one -/
example : (match QFinder.fit { QFinderWitness.cfgA with delta := 4 } .init QFinderWitness.dfA QFinderWitness.tA with
    | .ok st => OutFile.run (fun _ => 25) 0 ⟨some c!"old", none⟩ (QFinder.testOps { QFinderWitness.cfgA with delta := 4 } x0 st
        ⟨2, [(c!"a", [.str c!"x", .str c!"x"]), (c!"b", [.str c!"y", .str c!"z"]), (c!"t", [.str c!"1", .str c!"0"])]⟩ QFinderWitness.tA)
    | .error _ => ⟨none, none⟩) =
      ⟨some c!"Description: [a = 'x'], Target: t = '1' ; coverage: q ; odds_ratio: q ; p_value: q ; absolute_contribution: q ; contribution_ratio: q ; adjusted_p_value: q ; \nDescription: [b = 'y'], Target: t = '1' ; coverage: q ; odds_ratio: q ; p_value: q ; absolute_contribution: q ; contribution_ratio: q ; adjusted_p_value: q ; \nDescription: [a = 'w'], T",
        some (343, c!"arget: t = '1' ; ")⟩ := by decide +kernel

end FileRuns

end Verif

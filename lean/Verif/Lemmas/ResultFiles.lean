import Verif.Model.ResultFiles
import Verif.Lemmas.OutFile
/-! Lemmas on the result files: the traces agree with the searches, and what the events of a run do to the file. -/
namespace Verif
open OutFile

/-- a search with its calls of the handler -/
def Trace.play {ι α σ : Type} (h : σ → ι → Except PyErr σ) (t : Trace ι α) (st : σ) : Except PyErr (σ × α) :=
  match t.items.foldlM h st with
  | .error e => .error e
  | .ok st' => match t.out with
    | .error e => .error e
    | .ok a => .ok (st', a)

theorem foldlM_app {ι σ : Type} (h : σ → ι → Except PyErr σ) (a b : List ι) (st : σ) :
    (a ++ b).foldlM h st = match a.foldlM h st with
      | .error e => .error e
      | .ok st' => b.foldlM h st' := by
  rw [List.foldlM_append]
  cases a.foldlM h st <;> rfl

theorem foldlM_cons' {ι σ : Type} (h : σ → ι → Except PyErr σ) (a : ι) (b : List ι) (st : σ) :
    (a :: b).foldlM h st = match h st a with
      | .error e => .error e
      | .ok st' => b.foldlM h st' := by
  rw [List.foldlM_cons]
  cases h st a <;> rfl

theorem foldlM_nil' {ι σ : Type} (h : σ → ι → Except PyErr σ) (st : σ) : ([] : List ι).foldlM h st = .ok st := rfl

namespace VLSDConfig
variable {Seq : Type}

theorem joinRight_trace (I : VLImpl Seq) (cfg : VLSDConfig) (target : Str × Str) (TP FP : Nat) (M : VMatrix Seq) (x : VList Selector Seq)
    (ys : List (VList Selector Seq)) (st : VLState Seq) :
    joinRight I cfg target TP FP M x ys st = (emitRight I cfg TP FP M x ys).play (cfg.handle target TP FP) st := by
  induction ys generalizing st with
  | nil => rfl
  | cons y ys ih =>
    unfold joinRight emitRight
    cases x.sels.getLast? with
    | none => rfl
    | some a => cases y.sels.getLast? with
      | none => rfl
      | some b =>
        simp only
        cases M.query a b with
        | none => exact ih st
        | some m =>
          simp only
          by_cases hm : m.quality ≥ cfg.minEstimate
          · rw [if_pos hm, if_pos hm]
            cases cfg.goodJoin I TP FP x y with
            | error e => rfl
            | ok o => cases o with
              | none => exact ih st
              | some v =>
                simp only [Trace.play, foldlM_cons']
                cases cfg.handle target TP FP st v with
                | error e => rfl
                | ok st1 =>
                  simp only [ih st1, Trace.play]
                  cases (emitRight I cfg TP FP M x ys).items.foldlM (cfg.handle target TP FP) st1 with
                  | error e => rfl
                  | ok st2 => simp only; cases (emitRight I cfg TP FP M x ys).out <;> rfl
          · rw [if_neg hm, if_neg hm]; exact ih st

theorem search_cons' (I : VLImpl Seq) (cfg : VLSDConfig) (target : Str × Str) (TP FP : Nat) (M : VMatrix Seq) (x : VList Selector Seq)
    (rest : List (VList Selector Seq)) (st : VLState Seq) :
    search I cfg target TP FP M (x :: rest) st = match joinRight I cfg target TP FP M x rest st with
      | .error e => .error e
      | .ok (st1, V) => match (if V = [] then .ok st1 else search I cfg target TP FP M (cfg.sortOther.sort V) st1) with
        | .error e => .error e
        | .ok st2 => search I cfg target TP FP M rest st2 := by
  rw [search]
  split
  · rename_i h; rw [h]
  · rename_i st1 V h
    rw [h]
    simp only
    cases (if V = [] then Except.ok st1 else search I cfg target TP FP M (cfg.sortOther.sort V) st1) <;> rfl

theorem emitSearch_error (I : VLImpl Seq) (cfg : VLSDConfig) (TP FP : Nat) (M : VMatrix Seq) (x : VList Selector Seq) (rest : List (VList Selector Seq)) {e : PyErr}
    (h : (emitRight I cfg TP FP M x rest).out = .error e) :
    emitSearch I cfg TP FP M (x :: rest) = ⟨(emitRight I cfg TP FP M x rest).items, .error e⟩ := by
  rw [emitSearch]
  split
  · rename_i h1; rw [h] at h1; cases h1; rfl
  · rename_i h1; rw [h] at h1; cases h1

theorem emitSearch_ok (I : VLImpl Seq) (cfg : VLSDConfig) (TP FP : Nat) (M : VMatrix Seq) (x : VList Selector Seq) (rest : List (VList Selector Seq))
    {V : List (VList Selector Seq)} (h : (emitRight I cfg TP FP M x rest).out = .ok V) {below : Trace (VList Selector Seq) Unit}
    (hb : (if V = [] then ⟨[], .ok ()⟩ else emitSearch I cfg TP FP M (cfg.sortOther.sort V)) = below) :
    emitSearch I cfg TP FP M (x :: rest) = match below.out with
      | .error e => ⟨(emitRight I cfg TP FP M x rest).items ++ below.items, .error e⟩
      | .ok _ => ⟨(emitRight I cfg TP FP M x rest).items ++ below.items ++ (emitSearch I cfg TP FP M rest).items, (emitSearch I cfg TP FP M rest).out⟩ := by
  rw [emitSearch]
  split
  · rename_i h1; rw [h] at h1; cases h1
  · rename_i V' h1
    rw [h] at h1
    cases h1
    simp only [hb]
    cases below.out <;> rfl

theorem search_trace (I : VLImpl Seq) (cfg : VLSDConfig) (target : Str × Str) (TP FP : Nat) (M : VMatrix Seq) (P : List (VList Selector Seq)) (st : VLState Seq) :
    search I cfg target TP FP M P st = ((emitSearch I cfg TP FP M P).play (cfg.handle target TP FP) st).map (·.1) := by
  induction hn : P.length using Nat.strong_induction_on generalizing P st with
  | _ n ih =>
  cases P with
  | nil => unfold search emitSearch; rfl
  | cons x rest =>
    rw [search_cons', joinRight_trace]
    cases hout : (emitRight I cfg TP FP M x rest).out with
    | error e =>
      rw [emitSearch_error I cfg TP FP M x rest hout]
      simp only [Trace.play, hout]
      cases (emitRight I cfg TP FP M x rest).items.foldlM (cfg.handle target TP FP) st <;> rfl
    | ok V =>
      have hlen := emitRight_length hout
      have hbelow : ∀ s, (if V = [] then Except.ok s else search I cfg target TP FP M (cfg.sortOther.sort V) s) =
          ((if V = [] then (⟨[], .ok ()⟩ : Trace (VList Selector Seq) Unit) else emitSearch I cfg TP FP M (cfg.sortOther.sort V)).play (cfg.handle target TP FP) s).map (·.1) := by
        intro s
        by_cases hV : V = []
        · rw [if_pos hV, if_pos hV]; rfl
        · rw [if_neg hV, if_neg hV]
          refine ih _ ?_ _ _ rfl
          rw [sort_length, ← hn, List.length_cons]; omega
      rw [emitSearch_ok I cfg TP FP M x rest hout rfl]
      revert hbelow
      generalize (if V = [] then (⟨[], .ok ()⟩ : Trace (VList Selector Seq) Unit) else emitSearch I cfg TP FP M (cfg.sortOther.sort V)) = below
      intro hbelow
      have hrest : ∀ s, search I cfg target TP FP M rest s = ((emitSearch I cfg TP FP M rest).play (cfg.handle target TP FP) s).map (·.1) :=
        fun s => ih _ (by rw [← hn]; simp) _ _ rfl
      cases hbo : below.out with
      | error e =>
        simp only [Trace.play, foldlM_app, hout]
        cases (emitRight I cfg TP FP M x rest).items.foldlM (cfg.handle target TP FP) st with
        | error e => rfl
        | ok st1 =>
          simp only [hbelow, Trace.play, hbo]
          cases below.items.foldlM (cfg.handle target TP FP) st1 <;> rfl
      | ok u =>
        simp only [Trace.play, foldlM_app, hout]
        cases (emitRight I cfg TP FP M x rest).items.foldlM (cfg.handle target TP FP) st with
        | error e => rfl
        | ok st1 =>
          simp only [hbelow, Trace.play, hbo]
          cases below.items.foldlM (cfg.handle target TP FP) st1 with
          | error e => rfl
          | ok st2 => simp only [Except.map, hrest, Trace.play]

theorem level2_trace (I : VLImpl Seq) (cfg : VLSDConfig) (target : Str × Str) (TP FP : Nat) (M : VMatrix Seq) (P : List (VList Selector Seq)) (st : VLState Seq) :
    level2 I cfg target TP FP M P st = ((emitLevel2 I cfg TP FP M P).play (cfg.handle target TP FP) st).map (·.1) := by
  induction P generalizing st with
  | nil => rfl
  | cons x rest ih =>
    unfold level2 emitLevel2
    cases x.sels.getLast? with
    | none => rfl
    | some a =>
      simp only
      cases M.lookup a with
      | none => exact ih st
      | some row =>
        simp only
        generalize cfg.sortOther.sort (row.map (·.2)) = P
        cases hbo : (emitSearch I cfg TP FP M P).out with
        | error e =>
          simp only [Trace.play, foldlM_app]
          cases P.foldlM (cfg.handle target TP FP) st with
          | error e => rfl
          | ok st1 =>
            simp only [search_trace, Trace.play, hbo]
            cases (emitSearch I cfg TP FP M P).items.foldlM (cfg.handle target TP FP) st1 <;> rfl
        | ok u =>
          simp only [Trace.play, foldlM_app]
          cases P.foldlM (cfg.handle target TP FP) st with
          | error e => rfl
          | ok st1 =>
            simp only [search_trace, Trace.play, hbo]
            cases (emitSearch I cfg TP FP M P).items.foldlM (cfg.handle target TP FP) st1 with
            | error e => rfl
            | ok st2 => simp only [Except.map, ih, Trace.play]

/-- `fit` hands the items of the trace to the handler, one after the other -/
theorem fit_trace (I : VLImpl Seq) (cfg : VLSDConfig) (st : VLState Seq) (df : Frame) (target : Str × Str) {mask : List Bool} (hn : df.nominal = true)
    (hm : targetMask df target = .ok mask) :
    cfg.fit I st df target =
      ((cfg.emit I df target mask).play (cfg.handle target (mask.count true) (df.nrows - mask.count true)) { st with file := [] }).map (·.1) := by
  unfold fit emit
  simp only [hn, Bool.not_true, Bool.false_eq_true, if_false, hm]
  cases cfg.s1 I df target.1 mask (mask.count true) (df.nrows - mask.count true) with
  | error e => rfl
  | ok S1 =>
    simp only
    cases hS : S1.foldlM (cfg.handle target (mask.count true) (df.nrows - mask.count true)) { st with file := [] } with
    | error e => cases cfg.matrix I (mask.count true) (df.nrows - mask.count true) S1 <;> simp only [Trace.play, foldlM_app, hS] <;> rfl
    | ok st1 =>
      cases cfg.matrix I (mask.count true) (df.nrows - mask.count true) S1 with
      | error e => simp only [Trace.play, hS]; rfl
      | ok M => simp only [level2_trace, Trace.play, foldlM_app, hS]

end VLSDConfig

/-! ### events -/

/-- what the texts of the accepted items are -/
def acceptedTexts {ι : Type} (judge : ι → Except PyErr (Option (List Str))) (xs : List ι) : List (List Str) :=
  xs.filterMap (fun x => match judge x with
    | .ok (some ts) => some ts
    | _ => none)

theorem take_writes' (ts : List Str) (j : Nat) (tl : List SDMapEvent) :
    (ts.map (fun t => SDMapEvent.file (.write t)) ++ tl).take j =
      (ts.take j).map (fun t => SDMapEvent.file (.write t)) ++ tl.take (j - ts.length) := by
  rw [List.take_append, List.map_take, List.length_map]

theorem flatten_take_prefix' (ts : List Str) (j : Nat) : (ts.take j).flatten <+: ts.flatten := by
  conv => rhs; rw [← List.take_append_drop j ts, List.flatten_append]
  exact List.prefix_append _ _

/-- an end of `fit` -/
def IsFin (fin : List SDMapEvent) : Prop := fin = [.file .close] ∨ ∃ e, fin = [.raised e]

theorem Trace.isFin {ι α : Type} (t : Trace ι α) : IsFin t.fin := by
  unfold Trace.fin
  cases t.out
  · exact Or.inr ⟨_, rfl⟩
  · exact Or.inl rfl

/-- any moment of the handling of some items -/
theorem judged_crash {ι : Type} (judge : ι → Except PyErr (Option (List Str))) (fin : List SDMapEvent) (hfin : IsFin fin) (S : Str) (sched : Nat → Nat)
    (xs : List ι) (j i : Nat) (o : SDMapObj) (D B : Str) (h : o.out = shape S D B) :
    let o' := SDMapObj.run sched i o ((judgedEvents judge fin xs).take j)
    ∃ n part, n ≤ xs.length ∧ (∀ x ∈ xs.take n, ∃ r, judge x = .ok r) ∧
      o'.selected = o.selected + (acceptedTexts judge (xs.take n)).length ∧ o'.selected + o'.unselected = o.selected + o.unselected + n ∧
      (part = [] ∨ ∃ x ts, xs[n]? = some x ∧ judge x = .ok (some ts) ∧ part <+: ts.flatten) ∧
      ((∃ D' B', o'.out = shape S D' B' ∧ D' ++ B' = D ++ B ++ (acceptedTexts judge (xs.take n)).flatten.flatten ++ part) ∨
       (n = xs.length ∧ part = [] ∧ fin = [.file .close] ∧
        o'.out = ⟨some (D ++ B ++ (acceptedTexts judge xs).flatten.flatten ++ S.drop (D ++ B ++ (acceptedTexts judge xs).flatten.flatten).length), none⟩)) := by
  induction xs generalizing j i o D B with
  | nil =>
    intro o'
    refine ⟨0, [], Nat.le_refl _, by simp, ?_⟩
    cases j with
    | zero => exact ⟨by simp [o', SDMapObj.run, acceptedTexts], by simp [o', SDMapObj.run], Or.inl rfl, Or.inl ⟨D, B, by simp [o', SDMapObj.run, h], by simp [acceptedTexts]⟩⟩
    | succ j =>
      rcases hfin with rfl | ⟨e, rfl⟩
      · have ho' : o' = { o with out := o.out.step (sched i) .close } := by simp [o', judgedEvents, SDMapObj.run, SDMapObj.step]
        rw [ho']
        refine ⟨by simp [acceptedTexts], by simp, Or.inl rfl, Or.inr ⟨rfl, rfl, rfl, ?_⟩⟩
        show o.out.step (sched i) .close = _
        rw [h, close_shape]
        simp [acceptedTexts]
      · have ho' : o' = o := by simp [o', judgedEvents, SDMapObj.run, SDMapObj.step]
        rw [ho']
        exact ⟨by simp [acceptedTexts], by simp, Or.inl rfl, Or.inl ⟨D, B, h, by simp [acceptedTexts]⟩⟩
  | cons x xs ih =>
    intro o'
    cases hx : judge x with
    | error e =>
      have ho' : o' = o := by
        simp only [o', judgedEvents, hx]
        cases j <;> simp [SDMapObj.run, SDMapObj.step]
      rw [ho']
      exact ⟨0, [], Nat.zero_le _, by simp, by simp [acceptedTexts], by simp, Or.inl rfl, Or.inl ⟨D, B, h, by simp [acceptedTexts]⟩⟩
    | ok r =>
      cases r with
      | none =>
        cases j with
        | zero =>
          exact ⟨0, [], Nat.zero_le _, by simp, by simp [o', SDMapObj.run, acceptedTexts], by simp [o', SDMapObj.run], Or.inl rfl,
            Or.inl ⟨D, B, by simp [o', SDMapObj.run, h], by simp [acceptedTexts]⟩⟩
        | succ j =>
          have ho' : o' = SDMapObj.run sched (i + 1) { o with unselected := o.unselected + 1 } ((judgedEvents judge fin xs).take j) := by
            simp [o', judgedEvents, hx, SDMapObj.run, SDMapObj.step]
          obtain ⟨n, part, h1, h2, h3, h4, h5, h6⟩ := ih j (i + 1) { o with unselected := o.unselected + 1 } D B h
          rw [← ho'] at h3 h4 h6
          have hacc : ∀ ys, acceptedTexts judge (x :: ys) = acceptedTexts judge ys := by intro ys; simp [acceptedTexts, hx]
          refine ⟨n + 1, part, by simpa using h1, ?_, ?_, ?_, by simpa using h5, ?_⟩
          · intro y hy
            rw [List.take_succ_cons] at hy
            rcases List.mem_cons.1 hy with rfl | hy
            · exact ⟨_, hx⟩
            · exact h2 y hy
          · rw [List.take_succ_cons, hacc]; exact h3
          · rw [h4]; simp only; omega
          · rw [List.take_succ_cons, hacc, hacc]
            rcases h6 with h6 | ⟨k1, k2, k3, k4⟩
            · exact Or.inl h6
            · exact Or.inr ⟨by simp [k1], k2, k3, k4⟩
      | some ts =>
        have hacc : ∀ ys, acceptedTexts judge (x :: ys) = ts :: acceptedTexts judge ys := by intro ys; simp [acceptedTexts, hx]
        have hev : o' = SDMapObj.run sched i o ((ts.take j).map (fun t => .file (.write t)) ++ (SDMapEvent.selected :: judgedEvents judge fin xs).take (j - ts.length)) := by
          simp only [o', judgedEvents, hx]
          rw [take_writes']
        obtain ⟨D1, B1, w1, -, w2⟩ := SDMapObj.run_writes sched (ts.take j) i o S D B h
        rw [SDMapObj.run_append, w2] at hev
        cases hj : j - ts.length with
        | zero =>
          rw [hj] at hev
          simp only [List.take_zero, SDMapObj.run] at hev
          rw [hev]
          refine ⟨0, (ts.take j).flatten, Nat.zero_le _, by simp, by simp [acceptedTexts], by simp, Or.inr ⟨x, ts, rfl, hx, flatten_take_prefix' ts j⟩, Or.inl ⟨D1, B1, rfl, ?_⟩⟩
          rw [w1]
          simp [acceptedTexts]
        | succ j' =>
          have hall : ts.take j = ts := List.take_of_length_le (by omega)
          rw [hall] at w1
          rw [hj] at hev
          simp only [List.take_succ_cons, SDMapObj.run, SDMapObj.step] at hev
          obtain ⟨n, part, h1, h2, h3, h4, h5, h6⟩ := ih j' (i + ((ts.take j).map (fun t => SDMapEvent.file (.write t))).length + 1) ⟨o.selected + 1, o.unselected, shape S D1 B1⟩ D1 B1 rfl
          rw [← hev] at h3 h4 h6
          refine ⟨n + 1, part, by simpa using h1, ?_, ?_, ?_, by simpa using h5, ?_⟩
          · intro y hy
            rw [List.take_succ_cons] at hy
            rcases List.mem_cons.1 hy with rfl | hy
            · exact ⟨_, hx⟩
            · exact h2 y hy
          · rw [List.take_succ_cons, hacc, h3]; simp only [List.length_cons]; omega
          · rw [h4]; simp only; omega
          · rw [List.take_succ_cons, hacc, hacc]
            rcases h6 with ⟨D', B', k1, k2⟩ | ⟨k1, k2, k3, k4⟩
            · refine Or.inl ⟨D', B', k1, ?_⟩
              rw [k2, w1]
              simp
            · refine Or.inr ⟨by simp [k1], k2, k3, ?_⟩
              rw [k4, w1]
              simp

/-- the whole run -/
theorem judged_done {ι : Type} (judge : ι → Except PyErr (Option (List Str))) (fin : List SDMapEvent) (hfin : IsFin fin) (S : Str) (sched : Nat → Nat)
    (xs : List ι) (i : Nat) (o : SDMapObj) (D B : Str) (h : o.out = shape S D B) :
    let o' := SDMapObj.run sched i o (judgedEvents judge fin xs)
    (∃ n x e, xs[n]? = some x ∧ judge x = .error e ∧ (∀ y ∈ xs.take n, ∃ r, judge y = .ok r) ∧
      o'.selected = o.selected + (acceptedTexts judge (xs.take n)).length ∧ o'.selected + o'.unselected = o.selected + o.unselected + n ∧
      ∃ D' B', o'.out = shape S D' B' ∧ D' ++ B' = D ++ B ++ (acceptedTexts judge (xs.take n)).flatten.flatten) ∨
    ((∀ y ∈ xs, ∃ r, judge y = .ok r) ∧
      o'.selected = o.selected + (acceptedTexts judge xs).length ∧ o'.selected + o'.unselected = o.selected + o.unselected + xs.length ∧
      ((∃ e D' B', fin = [.raised e] ∧ o'.out = shape S D' B' ∧ D' ++ B' = D ++ B ++ (acceptedTexts judge xs).flatten.flatten) ∨
       (fin = [.file .close] ∧
        o'.out = ⟨some (D ++ B ++ (acceptedTexts judge xs).flatten.flatten ++ S.drop (D ++ B ++ (acceptedTexts judge xs).flatten.flatten).length), none⟩))) := by
  induction xs generalizing i o D B with
  | nil =>
    intro o'
    right
    refine ⟨by simp, ?_⟩
    rcases hfin with rfl | ⟨e, rfl⟩
    · have ho' : o' = { o with out := o.out.step (sched i) .close } := by simp [o', judgedEvents, SDMapObj.run, SDMapObj.step]
      rw [ho']
      refine ⟨by simp [acceptedTexts], by simp, Or.inr ⟨rfl, ?_⟩⟩
      show o.out.step (sched i) .close = _
      rw [h, close_shape]
      simp [acceptedTexts]
    · have ho' : o' = o := by simp [o', judgedEvents, SDMapObj.run, SDMapObj.step]
      rw [ho']
      exact ⟨by simp [acceptedTexts], by simp, Or.inl ⟨e, D, B, rfl, h, by simp [acceptedTexts]⟩⟩
  | cons x xs ih =>
    intro o'
    cases hx : judge x with
    | error e =>
      have ho' : o' = o := by simp [o', judgedEvents, hx, SDMapObj.run, SDMapObj.step]
      rw [ho']
      exact Or.inl ⟨0, x, e, rfl, hx, by simp, by simp [acceptedTexts], by simp, D, B, h, by simp [acceptedTexts]⟩
    | ok r =>
      have hstep : ∃ (i1 : Nat) (o1 : SDMapObj) (D1 B1 : Str) (a u : Nat), o' = SDMapObj.run sched i1 o1 (judgedEvents judge fin xs) ∧ o1.out = shape S D1 B1 ∧
          o1.selected = o.selected + a ∧ o1.unselected = o.unselected + u ∧ a + u = 1 ∧ (∀ ys, (acceptedTexts judge (x :: ys)).length = a + (acceptedTexts judge ys).length) ∧
          ∀ ys, D ++ B ++ (acceptedTexts judge (x :: ys)).flatten.flatten = D1 ++ B1 ++ (acceptedTexts judge ys).flatten.flatten := by
        cases r with
        | none =>
          refine ⟨i + 1, { o with unselected := o.unselected + 1 }, D, B, 0, 1, by simp [o', judgedEvents, hx, SDMapObj.run, SDMapObj.step], h, rfl, rfl, rfl, ?_, ?_⟩
          · intro ys; simp [acceptedTexts, hx]
          · intro ys; simp [acceptedTexts, hx]
        | some ts =>
          obtain ⟨D1, B1, w1, -, w2⟩ := SDMapObj.run_writes sched ts i o S D B h
          refine ⟨i + (ts.map (fun t => SDMapEvent.file (.write t))).length + 1, ⟨o.selected + 1, o.unselected, shape S D1 B1⟩, D1, B1, 1, 0, ?_, rfl, rfl, rfl, rfl, ?_, ?_⟩
          · simp only [o', judgedEvents, hx]
            rw [SDMapObj.run_append, w2]
            rfl
          · intro ys; simp [acceptedTexts, hx]; omega
          · intro ys; rw [w1]; simp [acceptedTexts, hx]
      obtain ⟨i1, o1, D1, B1, a, u, h0, h1, h2, h3, hau, h4, h5⟩ := hstep
      rcases ih i1 o1 D1 B1 h1 with ⟨n, y, e, k1, k2, k3, k4, k5, D', B', k6, k7⟩ | ⟨k1, k2, k3, k4⟩
      · rw [← h0] at k4 k5 k6
        refine Or.inl ⟨n + 1, y, e, by simpa using k1, k2, ?_, ?_, ?_, D', B', k6, ?_⟩
        · intro z hz
          rw [List.take_succ_cons] at hz
          rcases List.mem_cons.1 hz with rfl | hz
          · exact ⟨_, hx⟩
          · exact k3 z hz
        · rw [List.take_succ_cons, h4, k4, h2]; omega
        · rw [k5, h2, h3]; omega
        · rw [k7, List.take_succ_cons, h5]
      · rw [← h0] at k2 k3 k4
        refine Or.inr ⟨?_, ?_, ?_, ?_⟩
        · intro z hz
          rcases List.mem_cons.1 hz with rfl | hz
          · exact ⟨_, hx⟩
          · exact k1 z hz
        · rw [h4, k2, h2]; omega
        · rw [k3, h2, h3, List.length_cons]; omega
        · rw [h5]; exact k4

namespace SDMapStarConfig

/-- what matters for the rest of the search -/
def proj (s : StarState) : SDMapState × List Rat := (s.base, s.ks)

theorem visit_emit (cfg : SDMapStarConfig) (target : Str × Str) (TP FP : Nat) (st : StarState) (X : List Selector) (c : Cnt) :
    (cfg.visit target TP FP st X c).map (fun r => (proj r.1, r.2)) = match cfg.emitVisit TP FP st.ks c with
      | .error e => .error e
      | .ok (ks, false) => .ok ((st.base, ks), false)
      | .ok (ks, true) => match cfg.toSDMapConfig.handle target TP FP st.base (Pattern.new X, c) with
        | .error e => .error e
        | .ok b => .ok ((b, ks), true) := by
  unfold visit emitVisit
  cases cfg.kQuality TP FP c with
  | error e => rfl
  | ok q =>
    simp only [bind, Except.bind]
    cases pushK cfg.num st.ks q with
    | error e => rfl
    | ok ks =>
      simp only
      cases cfg.oe TP FP c with
      | error e => rfl
      | ok o =>
        simp only
        cases ks with
        | nil => rfl
        | cons m ks =>
          simp only
          by_cases hm : m > o
          · rw [if_pos hm, if_pos hm]; rfl
          · rw [if_neg hm, if_neg hm]
            cases cfg.toSDMapConfig.handle target TP FP st.base (Pattern.new X, c) <;> rfl

theorem loop_emit {α ι : Type} (h : SDMapState → ι → Except PyErr SDMapState) (F : StarState → α → Except PyErr StarState) (f : List Rat → α → Trace ι (List Rat))
    (hF : ∀ st a, (F st a).map proj = (f st.ks a).play h st.base) (l : List α) (st : StarState) :
    (l.foldlM F st).map proj = (emitLoop f l st.ks).play h st.base := by
  induction l generalizing st with
  | nil => rfl
  | cons a l ih =>
    rw [foldlM_cons', emitLoop]
    have h1 := hF st a
    unfold Trace.play at h1
    cases ho : (f st.ks a).out with
    | error e =>
      simp only [Trace.play]
      rw [ho] at h1
      cases hf : F st a with
      | error e' => rw [hf] at h1; exact h1
      | ok s1 =>
        rw [hf] at h1
        cases hi : (f st.ks a).items.foldlM h st.base <;> (rw [hi] at h1; cases h1)
    | ok k =>
      simp only [Trace.play, foldlM_app]
      rw [ho] at h1
      cases hi : (f st.ks a).items.foldlM h st.base with
      | error e =>
        rw [hi] at h1
        cases hf : F st a with
        | error e' => rw [hf] at h1; exact h1
        | ok s1 => rw [hf] at h1; cases h1
      | ok b =>
        rw [hi] at h1
        cases hf : F st a with
        | error e' => rw [hf] at h1; cases h1
        | ok s1 =>
          rw [hf] at h1
          simp only [Except.map, proj, Except.ok.injEq, Prod.mk.injEq] at h1
          obtain ⟨rfl, rfl⟩ := h1
          exact ih s1

theorem growth_emit (cfg : SDMapStarConfig) (target : Str × Str) (TP FP : Nat) (fuel : Nat) (st : StarState) (t : FPTree Selector) (alpha : List Selector) :
    (cfg.fpgrowthStar target TP FP fuel st t alpha).map proj =
      (cfg.emitGrowth TP FP fuel t alpha st.ks).play (cfg.toSDMapConfig.handle target TP FP) st.base := by
  induction fuel generalizing st t alpha with
  | zero => rfl
  | succ fuel ih =>
    unfold fpgrowthStar emitGrowth
    by_cases hs : t.singlePath = true
    · rw [if_pos hs, if_pos hs]
      apply loop_emit
      intro st beta
      have hv := visit_emit cfg target TP FP st (beta ++ alpha) (t.leastFrequentCnt beta)
      cases hx : cfg.visit target TP FP st (beta ++ alpha) (t.leastFrequentCnt beta) with
      | error e =>
        rw [hx] at hv
        simp only [Except.map, bind, Except.bind] at hv ⊢
        cases he : cfg.emitVisit TP FP st.ks (t.leastFrequentCnt beta) with
        | error e' => rw [he] at hv; cases hv; rfl
        | ok r =>
          obtain ⟨ks, b⟩ := r
          rw [he] at hv
          cases b with
          | false => cases hv
          | true =>
            simp only [Trace.play, foldlM_cons', foldlM_nil'] at hv ⊢
            cases hh : cfg.toSDMapConfig.handle target TP FP st.base (Pattern.new (beta ++ alpha), t.leastFrequentCnt beta) with
            | error e' => rw [hh] at hv; cases hv; rfl
            | ok b => rw [hh] at hv; cases hv
      | ok r =>
        rw [hx] at hv
        simp only [Except.map, bind, Except.bind, pure, Except.pure] at hv ⊢
        cases he : cfg.emitVisit TP FP st.ks (t.leastFrequentCnt beta) with
        | error e' => rw [he] at hv; cases hv
        | ok r' =>
          obtain ⟨ks, b⟩ := r'
          rw [he] at hv
          cases b with
          | false =>
            simp only [Except.ok.injEq, Prod.mk.injEq] at hv
            rw [hv.1]; rfl
          | true =>
            simp only [Trace.play, foldlM_cons', foldlM_nil'] at hv ⊢
            cases hh : cfg.toSDMapConfig.handle target TP FP st.base (Pattern.new (beta ++ alpha), t.leastFrequentCnt beta) with
            | error e' => rw [hh] at hv; cases hv
            | ok b =>
              rw [hh] at hv
              simp only [Except.ok.injEq, Prod.mk.injEq] at hv
              simp only [hv.1]
    · rw [if_neg hs, if_neg hs]
      cases cfg.oeOrder TP FP t with
      | error e => rfl
      | ok order =>
        simp only [bind, Except.bind]
        apply loop_emit
        intro st a
        have hv := visit_emit cfg target TP FP st (a :: alpha) ((t.header.lookup a).getD (0, 0))
        cases hx : cfg.visit target TP FP st (a :: alpha) ((t.header.lookup a).getD (0, 0)) with
        | error e =>
          rw [hx] at hv
          simp only [Except.map] at hv ⊢
          cases he : cfg.emitVisit TP FP st.ks ((t.header.lookup a).getD (0, 0)) with
          | error e' => rw [he] at hv; cases hv; rfl
          | ok r =>
            obtain ⟨ks, b⟩ := r
            rw [he] at hv
            cases b with
            | false => cases hv
            | true =>
              simp only at hv ⊢
              cases hh : cfg.toSDMapConfig.handle target TP FP st.base (Pattern.new (a :: alpha), (t.header.lookup a).getD (0, 0)) with
              | ok b => rw [hh] at hv; cases hv
              | error e' =>
                rw [hh] at hv
                cases cfg.condTreeStar TP FP (ks.headD 0) t a with
                | error e2 => simp only [Trace.play, foldlM_cons', hh]; cases hv; rfl
                | ok c =>
                  simp only
                  split <;> (simp only [Trace.play, foldlM_cons', hh]; cases hv; rfl)
        | ok r =>
          obtain ⟨s1, go⟩ := r
          rw [hx] at hv
          simp only [Except.map] at hv
          simp only
          cases he : cfg.emitVisit TP FP st.ks ((t.header.lookup a).getD (0, 0)) with
          | error e' => rw [he] at hv; cases hv
          | ok r' =>
            obtain ⟨ks, b⟩ := r'
            rw [he] at hv
            cases b with
            | false =>
              simp only [Except.ok.injEq, Prod.mk.injEq] at hv
              obtain ⟨h1, rfl⟩ := hv
              simp only [Bool.false_eq_true, if_false, Except.map, h1]
              rfl
            | true =>
              simp only at hv ⊢
              cases hh : cfg.toSDMapConfig.handle target TP FP st.base (Pattern.new (a :: alpha), (t.header.lookup a).getD (0, 0)) with
              | error e' => rw [hh] at hv; cases hv
              | ok b =>
                rw [hh] at hv
                simp only [Except.ok.injEq, Prod.mk.injEq, proj] at hv
                obtain ⟨⟨rfl, rfl⟩, rfl⟩ := hv
                simp only [if_true]
                cases cfg.condTreeStar TP FP (s1.ks.headD 0) t a with
                | error e2 => simp only [Trace.play, foldlM_cons', foldlM_nil', hh]; rfl
                | ok c =>
                  simp only
                  split
                  · have := ih { s1 with condPruned := s1.condPruned + c.2 } c.1 (a :: alpha)
                    rw [this]
                    simp only [Trace.play, foldlM_cons', hh]
                  · simp only [Trace.play, foldlM_cons', foldlM_nil', hh]; rfl

end SDMapStarConfig

end Verif

import Verif.Model.World
import Verif.Props.ResultFiles2
import Verif.Lemmas.Regex
/-! Properties C87 and C88: several objects that work on one disk, and functions whose output file is their input file. -/
namespace Verif
open Spec OutFile

namespace Spec

/-- the events of object `i`, in their order, and the amounts its buffer hands over -/
def eventsOf (ts : List Turn) (i : Nat) : List SDMapEvent := (ts.filter (fun t => t.obj = i)).map (·.event)
def amountsOf (ts : List Turn) (i : Nat) (n : Nat) : Nat := (((ts.filter (fun t => t.obj = i)).map (·.amount))[n]?).getD 0

/-- nobody but object `i` writes to the file of object `i` -/
def OwnFile (path : Nat → Nat) (ts : List Turn) (i : Nat) : Prop := ∀ t ∈ ts, path t.obj = path i → t.obj = i

end Spec

theorem SDMapObj.run_sched (es : List SDMapEvent) (s s' : Nat → Nat) (i i' : Nat) (o : SDMapObj) (h : ∀ n, n < es.length → s (i + n) = s' (i' + n)) :
    SDMapObj.run s i o es = SDMapObj.run s' i' o es := by
  induction es generalizing i i' o with
  | nil => rfl
  | cons e es ih =>
    simp only [SDMapObj.run]
    have h0 := h 0 (by simp)
    simp only [Nat.add_zero] at h0
    rw [h0]
    refine ih _ _ _ (fun n hn => ?_)
    have := h (n + 1) (by simp only [List.length_cons]; omega)
    rw [show i + 1 + n = i + (n + 1) by omega, show i' + 1 + n = i' + (n + 1) by omega]
    exact this

theorem view_own (path : Nat → Nat) (w : World) (t : Turn) : (w.turn path t).view path t.obj = (w.view path t.obj).step t.amount t.event := by
  simp [World.turn, World.view]

theorem view_other (path : Nat → Nat) (w : World) (t : Turn) (i : Nat) (h1 : i ≠ t.obj) (h2 : path i ≠ path t.obj) : (w.turn path t).view path i = w.view path i := by
  simp [World.turn, World.view, h1, h2]

/-- **C87.** Objects that work at the same time on files of their own: whatever the interleaving of their events and whatever the buffers hand over, an object whose file nobody
else writes to ends up, with its counters and its file, exactly as if it had been alone. So C73 and C79 hold for it. -/
theorem C87_independent (path : Nat → Nat) (w : World) (ts : List Turn) (i : Nat) (h : OwnFile path ts i) :
    (w.run path ts).view path i = SDMapObj.run (amountsOf ts i) 0 (w.view path i) (eventsOf ts i) := by
  induction ts generalizing w with
  | nil => rfl
  | cons t ts ih =>
    have ih := ih (w.turn path t) (fun t' ht' => h t' (by simp [ht']))
    have hr : w.run path (t :: ts) = (w.turn path t).run path ts := rfl
    rw [hr, ih]
    by_cases ht : t.obj = i
    · subst ht
      rw [view_own]
      have he : eventsOf (t :: ts) t.obj = t.event :: eventsOf ts t.obj := by simp [eventsOf]
      rw [he]
      simp only [SDMapObj.run]
      have ha : amountsOf (t :: ts) t.obj 0 = t.amount := by simp [amountsOf]
      rw [ha]
      refine SDMapObj.run_sched _ _ _ _ _ _ (fun n _ => ?_)
      rw [Nat.zero_add, Nat.zero_add]
      simp [amountsOf, Nat.add_comm 1 n]
    · have hp : path i ≠ path t.obj := fun hp => ht (h t (by simp) hp.symm)
      rw [view_other path w t i (fun h => ht h.symm) hp]
      have he : eventsOf (t :: ts) i = eventsOf ts i := by simp [eventsOf, ht]
      have ha : amountsOf (t :: ts) i = amountsOf ts i := by funext n; simp [amountsOf, ht]
      rw [he, ha]

/-- **C87.** Files that no event writes to, and objects without events, stay as they are. -/
theorem C87_others (path : Nat → Nat) (w : World) (ts : List Turn) :
    (∀ p, (∀ t ∈ ts, path t.obj ≠ p) → (w.run path ts).files p = w.files p) ∧
    (∀ i, (∀ t ∈ ts, t.obj ≠ i) → (w.run path ts).objs i = w.objs i) := by
  induction ts generalizing w with
  | nil => exact ⟨fun _ _ => rfl, fun _ _ => rfl⟩
  | cons t ts ih =>
    have hr : w.run path (t :: ts) = (w.turn path t).run path ts := rfl
    rw [hr]
    refine ⟨fun p hp => ?_, fun i hi => ?_⟩
    · rw [(ih _).1 p (fun t' ht' => hp t' (by simp [ht']))]
      have := hp t (by simp)
      simp [World.turn, Ne.symm this]
    · rw [(ih _).2 i (fun t' ht' => hi t' (by simp [ht']))]
      have := hi t (by simp)
      simp [World.turn, Ne.symm this]

/-- **C87.** In particular: runs of SDMap in parallel (in threads, say), each with a file of its own. For each run that returns, at the end its file is closed and has exactly the lines
that the same run writes alone, and the counters are those of the run; at any moment before, the disk has what was there or a first part of these lines. -/
theorem C87_sdmap (path : Nat → Nat) (w : World) (ts : List Turn) (i : Nat) (h : OwnFile path ts i) (hi : (w.objs i).handle = none)
    (cfg : SDMapConfig) (name : Str) (fs : Rat → Str) (df : Frame) (target : Str × Str) (full : SDMapState) (hfit : cfg.fit newSDMap df target = .ok full) :
    (eventsOf ts i = cfg.events name fs df target → full.calls ≠ [] →
      (w.run path ts).files (path i) = some (resultText name fs full.file) ∧
      (w.run path ts).objs i = ⟨(w.objs i).selected + full.selected, (w.objs i).unselected + full.unselected, none⟩) ∧
    (eventsOf ts i <+: cfg.events name fs df target →
      (w.run path ts).files (path i) = w.files (path i) ∨ ∃ D, (w.run path ts).files (path i) = some D ∧ D <+: resultText name fs full.file) := by
  have hv := C87_independent path w ts i h
  have hh : (w.view path i).out.handle = none := hi
  have e1 : ((w.run path ts).view path i).out.disk = (w.run path ts).files (path i) := rfl
  constructor
  · intro he hc
    rw [he] at hv
    obtain ⟨h1, h2, h3⟩ := C73_done cfg name fs df target full hfit (w.view path i) (amountsOf ts i)
    rw [← hv] at h1 h2 h3
    rcases h3 with ⟨h3, -⟩ | ⟨h3, h4, -⟩
    · exact absurd h3 hc
    · refine ⟨h4 hh, ?_⟩
      have : (w.run path ts).objs i = ⟨((w.run path ts).view path i).selected, ((w.run path ts).view path i).unselected, ((w.run path ts).view path i).out.handle⟩ := rfl
      rw [this, h1, h2, h3]
      rfl
  · intro hp
    rw [List.prefix_iff_eq_take] at hp
    rw [hp] at hv
    rw [← e1, hv]
    rcases C73_prefix cfg name fs df target full hfit (w.view path i) hh (amountsOf ts i) (eventsOf ts i).length with h | h
    · left
      rw [h]
      rfl
    · exact Or.inr h

theorem SDMapObj.run_ops (ops : List OutFile.Op) (s : Nat → Nat) (n : Nat) (o : SDMapObj) :
    SDMapObj.run s n o (ops.map .file) = ⟨o.selected, o.unselected, OutFile.run s n o.out ops⟩ := by
  induction ops generalizing n o with
  | nil => rfl
  | cons op ops ih =>
    simp only [List.map_cons, SDMapObj.run, OutFile.run]
    rw [ih]
    rfl

/-- **C87.** The same for the algorithms that write when the search is over (BSD, IDSD and their variants, QFinder), for SDIGA, and for the subgroup list algorithms, whose runs
are operations on a file: the file of the object ends up as if these operations had been the only ones. -/
theorem C87_ops (path : Nat → Nat) (w : World) (ts : List Turn) (i : Nat) (h : OwnFile path ts i) (ops : List OutFile.Op) (he : eventsOf ts i = ops.map .file) :
    ⟨(w.run path ts).files (path i), ((w.run path ts).objs i).handle⟩ = OutFile.run (amountsOf ts i) 0 ⟨w.files (path i), (w.objs i).handle⟩ ops := by
  have hv := C87_independent path w ts i h
  rw [he, SDMapObj.run_ops] at hv
  exact congrArg SDMapObj.out hv

/-- **C87.** VLSD in parallel: its file is closed and has exactly the lines that the same run writes alone. -/
theorem C87_vlsd {Seq : Type} (path : Nat → Nat) (w : World) (ts : List Turn) (i : Nat) (h : OwnFile path ts i) (hi : (w.objs i).handle = none)
    (I : VLImpl Seq) (cfg : VLSDConfig) (name oeName : Str) (fs : Rat → Str) (ss : Seq → Str) (df : Frame) (target : Str × Str) (full : VLState Seq)
    (hfit : cfg.fit I newVLSD df target = .ok full) (he : eventsOf ts i = cfg.events I name oeName fs ss df target) :
    (w.run path ts).files (path i) = some (vresultText name oeName fs ss full.file) ∧
    (w.run path ts).objs i = ⟨(w.objs i).selected + full.selected, (w.objs i).unselected + full.unselected, none⟩ := by
  have hv := C87_independent path w ts i h
  rw [he] at hv
  obtain ⟨h1, h2, h3, h4, -⟩ := C79_vlsd_done I cfg name oeName fs ss df target full hfit (w.view path i) (amountsOf ts i)
  rw [← hv] at h1 h2 h3 h4
  refine ⟨h4 hi, ?_⟩
  have : (w.run path ts).objs i = ⟨((w.run path ts).view path i).selected, ((w.run path ts).view path i).unselected, ((w.run path ts).view path i).out.handle⟩ := rfl
  rw [this, h1, h2, h3]
  rfl

/-- **C87.** BSD, CBSD and CPBSD in parallel. -/
theorem C87_bsd (path : Nat → Nat) (w : World) (ts : List Turn) (i : Nat) (h : OwnFile path ts i) (hi : (w.objs i).handle = none)
    (cfg : BSDConfig) (name : Str) (fs : Rat → Str) (st : BSDState) (df : Frame) (target : Str × Str) (full : BSDState) (hfit : cfg.fit st df target = .ok full)
    (he : eventsOf ts i = (cfg.ops name fs st df target).map .file) :
    (w.run path ts).files (path i) = some (resultText name fs (full.file.map bsdLine)) ∧ ((w.run path ts).objs i).handle = none := by
  have hv := C87_ops path w ts i h _ he
  rw [((C79_bsd cfg name fs st df target ⟨w.files (path i), (w.objs i).handle⟩ hi (amountsOf ts i)).2 full hfit).1] at hv
  exact ⟨congrArg OutFile.disk hv, congrArg OutFile.handle hv⟩

/-- the events of object `i` alone -/
def aloneTurns (i : Nat) (sched : Nat → Nat) : Nat → List SDMapEvent → List Turn
  | _, [] => []
  | n, e :: es => ⟨i, sched n, e⟩ :: aloneTurns i sched (n + 1) es

theorem aloneTurns_obj (i : Nat) (sched : Nat → Nat) (n : Nat) (es : List SDMapEvent) : ∀ t ∈ aloneTurns i sched n es, t.obj = i := by
  induction es generalizing n with
  | nil => simp [aloneTurns]
  | cons e es ih =>
    intro t ht
    simp only [aloneTurns, List.mem_cons] at ht
    rcases ht with rfl | ht
    · rfl
    · exact ih _ t ht

theorem aloneTurns_events (i : Nat) (sched : Nat → Nat) (n : Nat) (es : List SDMapEvent) : eventsOf (aloneTurns i sched n es) i = es := by
  induction es generalizing n with
  | nil => rfl
  | cons e es ih =>
    have : eventsOf (aloneTurns i sched n (e :: es)) i = e :: eventsOf (aloneTurns i sched (n + 1) es) i := by simp [eventsOf, aloneTurns]
    rw [this, ih]

/-- **C87.** Objects with the same path, one after the other: after a run of SDMap that returns, of an object without a file left open, the file has exactly the lines of this run, whatever
other objects did to the file before. -/
theorem C87_last (path : Nat → Nat) (w : World) (before : List Turn) (i : Nat) (sched : Nat → Nat) (cfg : SDMapConfig) (name : Str) (fs : Rat → Str)
    (df : Frame) (target : Str × Str) (full : SDMapState) (hfit : cfg.fit newSDMap df target = .ok full) (hc : full.calls ≠ [])
    (hi : ((w.run path before).objs i).handle = none) :
    (w.run path (before ++ aloneTurns i sched 0 (cfg.events name fs df target))).files (path i) = some (resultText name fs full.file) := by
  have hr : w.run path (before ++ aloneTurns i sched 0 (cfg.events name fs df target)) =
      (w.run path before).run path (aloneTurns i sched 0 (cfg.events name fs df target)) := by simp [World.run]
  rw [hr]
  exact ((C87_sdmap path (w.run path before) _ i (fun t ht _ => aloneTurns_obj _ _ _ _ t ht) hi cfg name fs df target full hfit).1 (aloneTurns_events _ _ _ _) hc).1

/-- the first object ends its run on the small frame, and the second one its run on the same file -/
def demoWorld : World := ⟨fun p => if p = 0 then some c!"old" else none, fun _ => ⟨0, 0, none⟩⟩

def npvEvents (df : Frame) : List SDMapEvent := npvConfig.events c!"NPV" (fun _ => c!"0.5") df (c!"t", c!"y")

set_option maxRecDepth 20000 in
/-- **C87**, the claim for objects with the same path fails if one of them raised: the file of object 0, whose run raised, is still open; object 1 writes its results to the same
path, completely; when object 0 is thrown away (its file is closed then), the file of object 1 is overwritten with the results that object 0 had not handed over. -/
theorem C87_stale_fails : ∃ (w : World) (path : Nat → Nat) (full : SDMapState), path 0 = path 1 ∧ (w.objs 0).handle = none ∧ (w.objs 1).handle = none ∧
    npvConfig.fit newSDMap smallFrame (c!"t", c!"y") = .ok full ∧
    (w.run path (aloneTurns 0 (fun _ => 0) 0 (npvEvents constFrame) ++ aloneTurns 1 (fun _ => 0) 0 (npvEvents smallFrame))).files (path 1) =
      some (resultText c!"NPV" (fun _ => c!"0.5") full.file) ∧
    ∃ other, (w.run path (aloneTurns 0 (fun _ => 0) 0 (npvEvents constFrame) ++ aloneTurns 1 (fun _ => 0) 0 (npvEvents smallFrame) ++ [⟨0, 0, .file .close⟩])).files (path 1) =
      some other ∧ ¬ resultText c!"NPV" (fun _ => c!"0.5") full.file <+: other := by
  have h : (match npvConfig.fit newSDMap smallFrame (c!"t", c!"y"), (demoWorld.run (fun _ => 0) (aloneTurns 0 (fun _ => 0) 0 (npvEvents constFrame) ++ aloneTurns 1 (fun _ => 0) 0 (npvEvents smallFrame))).files 0,
        (demoWorld.run (fun _ => 0) (aloneTurns 0 (fun _ => 0) 0 (npvEvents constFrame) ++ aloneTurns 1 (fun _ => 0) 0 (npvEvents smallFrame) ++ [⟨0, 0, .file .close⟩])).files 0 with
      | .ok full, some a, some b => decide (a = resultText c!"NPV" (fun _ => c!"0.5") full.file) && decide (¬ resultText c!"NPV" (fun _ => c!"0.5") full.file <+: b)
      | _, _, _ => false) = true := by decide +kernel
  split at h
  · rename_i full a b h1 h2 h3
    rw [Bool.and_eq_true] at h
    exact ⟨demoWorld, fun _ => 0, full, rfl, rfl, rfl, h1, by rw [h2, of_decide_eq_true h.1], b, h3, of_decide_eq_true h.2⟩
  · cases h

/-- two runs on the same path, the events taken in turn -/
def weave : List Turn → List Turn → List Turn
  | [], b => b
  | a :: as, [] => a :: as
  | a :: as, b :: bs => a :: b :: weave as bs

def longFrame : Frame := ⟨2, [(c!"attr", [.str c!"u", .str c!"v"]), (c!"t", [.str c!"y", .str c!"n"])]⟩

def wovenRun : List Turn := weave (aloneTurns 0 (fun _ => 1000) 0 (npvEvents smallFrame)) (aloneTurns 1 (fun _ => 1000) 0 (npvEvents longFrame))

set_option maxRecDepth 20000 in
/-- **C87**, the claim for runs on the same path at the same time fails: both runs return, and the file has neither the lines of the one nor those of the other. -/
theorem C87_same_path_fails : ∃ (w : World) (path : Nat → Nat) (ts : List Turn) (df1 df2 : Frame) (full1 full2 : SDMapState) (txt : Str),
    path 0 = path 1 ∧ eventsOf ts 0 = npvEvents df1 ∧ eventsOf ts 1 = npvEvents df2 ∧ (∀ i, (w.objs i).handle = none) ∧
    npvConfig.fit newSDMap df1 (c!"t", c!"y") = .ok full1 ∧ npvConfig.fit newSDMap df2 (c!"t", c!"y") = .ok full2 ∧
    (w.run path ts).files (path 0) = some txt ∧
    ¬ resultText c!"NPV" (fun _ => c!"0.5") full1.file <+: txt ∧ ¬ resultText c!"NPV" (fun _ => c!"0.5") full2.file <+: txt := by
  have h : (match npvConfig.fit newSDMap smallFrame (c!"t", c!"y"), npvConfig.fit newSDMap longFrame (c!"t", c!"y"), (demoWorld.run (fun _ => 0) wovenRun).files 0 with
      | .ok full1, .ok full2, some txt => decide (eventsOf wovenRun 0 = npvEvents smallFrame) && decide (eventsOf wovenRun 1 = npvEvents longFrame) &&
          decide (¬ resultText c!"NPV" (fun _ => c!"0.5") full1.file <+: txt) && decide (¬ resultText c!"NPV" (fun _ => c!"0.5") full2.file <+: txt)
      | _, _, _ => false) = true := by decide +kernel
  split at h
  · rename_i full1 full2 txt h1 h2 h3
    rw [Bool.and_eq_true, Bool.and_eq_true, Bool.and_eq_true] at h
    exact ⟨demoWorld, fun _ => 0, wovenRun, smallFrame, longFrame, full1, full2, txt, rfl, of_decide_eq_true h.1.1.1, of_decide_eq_true h.1.1.2, fun _ => rfl, h1, h2, h3,
      of_decide_eq_true h.1.2, of_decide_eq_true h.2⟩
  · cases h

set_option maxRecDepth 20000 in
/-- two runs on files of their own, with their events taken in turn: the hypotheses of `C87_sdmap` hold for both -/
example : OwnFile id wovenRun 0 ∧ OwnFile id wovenRun 1 ∧ eventsOf wovenRun 0 = npvEvents smallFrame ∧
    (∃ full, npvConfig.fit newSDMap smallFrame (c!"t", c!"y") = .ok full ∧ full.calls ≠ [] ∧
      (demoWorld.run id wovenRun).files 0 = some (resultText c!"NPV" (fun _ => c!"0.5") full.file)) ∧
    (demoWorld.run id wovenRun).files 0 ≠ (demoWorld.run id wovenRun).files 1 := by
  have h : (match npvConfig.fit newSDMap smallFrame (c!"t", c!"y") with
      | .ok full => decide (eventsOf wovenRun 0 = npvEvents smallFrame) && decide (full.calls ≠ []) &&
          decide ((demoWorld.run id wovenRun).files 0 = some (resultText c!"NPV" (fun _ => c!"0.5") full.file)) &&
          decide ((demoWorld.run id wovenRun).files 0 ≠ (demoWorld.run id wovenRun).files 1)
      | _ => false) = true := by decide +kernel
  split at h
  · rename_i full h1
    rw [Bool.and_eq_true, Bool.and_eq_true, Bool.and_eq_true] at h
    exact ⟨fun t _ ht => ht, fun t _ ht => ht, of_decide_eq_true h.1.1.1, ⟨full, h1, of_decide_eq_true h.1.1.2, of_decide_eq_true h.1.2⟩, of_decide_eq_true h.2⟩
  · cases h

/-! ### The same path for input and output -/

/-- **C88.** The conversion of a file of VLSD. With two paths, the output is the one of C60 for the text of the input, the input stays as it is, and so do all other files. With the
same path twice, the results are lost: the file is empty afterwards, and the call reports no subgroup and no error. Without an input file, `FileNotFoundError` is raised and
nothing is written. -/
theorem C88_transform (files : Nat → Option Str) (inp out : Nat) :
    (∀ t, inp ≠ out → files inp = some t → ∃ files', transformAt files inp out = .ok (files', (transformFile t).2) ∧ files' out = some (transformFile t).1 ∧
      ∀ p, p ≠ out → files' p = files p) ∧
    (∀ t, files inp = some t → ∃ files', transformAt files inp inp = .ok (files', 0, 0) ∧ files' inp = some [] ∧ ∀ p, p ≠ inp → files' p = files p) ∧
    (files inp = none → transformAt files inp out = .error .fileNotFound) := by
  refine ⟨fun t hne ht => ?_, fun t ht => ?_, fun hn => ?_⟩
  · have e : (putFile files out []) inp = some t := by simp [putFile, hne, ht]
    refine ⟨putFile (putFile files out []) out (transformFile t).1, by simp only [transformAt, ht, e, Option.getD_some], ?_, ?_⟩
    all_goals simp +contextual [putFile]
  · have e : (putFile files inp []) inp = some [] := by simp [putFile]
    have e2 : transformFile [] = ([], 0, 0) := rfl
    refine ⟨putFile (putFile files inp []) inp [], by simp only [transformAt, ht, e, Option.getD_some, e2], ?_, ?_⟩
    all_goals simp +contextual [putFile]
  · simp only [transformAt, hn]

example : ∃ files' : Nat → Option Str, transformAt (fun _ => some c!"precious\n") 3 3 = .ok (files', 0, 0) ∧ files' 3 = some [] :=
  let ⟨f, h1, h2, _⟩ := (C88_transform (fun _ => some c!"precious\n") 3 3).2.1 _ rfl
  ⟨f, h1, h2⟩

/-- a line without a semicolon is not a candidate -/
theorem no_candidate {line : Str} (h : ';' ∉ line) : inputLineGroups line = none := by
  unfold inputLineGroups
  cases hf : fullmatch inputLineRegex line with
  | none => rfl
  | some parts =>
    exfalso
    obtain ⟨h1, h2⟩ := fullmatch_sound hf
    unfold inputLineRegex at h1
    cases h1 with
    | cons _ h1 => cases h1 with
      | cons hs _ =>
        rw [lang_lit] at hs
        apply h
        rw [← h2, hs]
        simp

section
variable {G C : Type}

/-- the messages for lines `k + 1`, ..., `k + n` of an input file, when none of them is a candidate -/
def Spec.notLoadedLines (k n : Nat) : Str :=
  (List.range' (k + 1) n).flatMap (fun i => c!"ERROR: subgroup in line " ++ natStr i ++ c!" from input file was not loaded.\n\t- Format not valid.\n")

theorem load_none (n : Nat) (ls : List Str) (h : ∀ l ∈ ls, ';' ∉ l) (k : Nat) (log : Str) :
    loadLoop n ls ⟨[], log, k + 1, 0⟩ = .ok ⟨[], log ++ notLoadedLines k ls.length, k + ls.length + 1, 0⟩ := by
  induction ls generalizing k log with
  | nil => simp [loadLoop, notLoadedLines]
  | cons l ls ih =>
    have hl : loadLine n (k + 1) l = .ok (none, notLoaded (k + 1) ++ c!"\t- Format not valid.\n") := by
      unfold loadLine
      rw [no_candidate (h l (by simp))]
    unfold loadLoop
    simp only [hl]
    rw [ih (fun l hl => h l (by simp [hl])) (k + 1)]
    have e1 : k + 1 + ls.length + 1 = k + (l :: ls).length + 1 := by simp only [List.length_cons]; omega
    rw [e1]
    have e2 : notLoadedLines k (l :: ls).length = notLoaded (k + 1) ++ c!"\t- Format not valid.\n" ++ notLoadedLines (k + 1) ls.length := by
      simp only [notLoadedLines, List.length_cons, List.range'_succ, List.flatMap_cons, notLoaded]
      simp
    rw [e2]
    simp

theorem buildLists_none (M : Miner G C) (l0 : SubgroupList) (k : Nat) : buildLists M l0 k [] = .ok (List.replicate k l0) := by
  induction k with
  | zero => rfl
  | succ k ih =>
    have hb : buildList M (remaining [] + 1) l0 M.init [] = .ok (some (l0, [])) := by
      show buildList M 1 l0 M.init [] = _
      unfold buildList
      split <;> rfl
    unfold buildLists
    rw [hb]
    simp only [ih]
    rfl

theorem no_semi_nat (n : Nat) : ';' ∉ natStr n := fun h => by
  have := natStr_digits n _ h
  revert this
  unfold IsDigit
  decide

theorem no_semi_header (df : Frame) (mask : Bits) : ';' ∉ datasetInfo df mask ++ c!"Reading input file.\n" := by
  unfold datasetInfo
  simp only [List.mem_append, not_or]
  have := no_semi_nat
  refine ⟨⟨⟨⟨⟨⟨⟨⟨⟨⟨⟨⟨⟨?_, ?_⟩, this _⟩, ?_⟩, ?_⟩, this _⟩, ?_⟩, ?_⟩, this _⟩, ?_⟩, ?_⟩, this _⟩, ?_⟩, ?_⟩ <;> decide

section
open Classical

/-- **C88.** GMSL, PSLD and DSLM (any way to choose the subgroups) with the input path as the output path: whatever the file held, and whatever the buffering, `fit` returns, no candidate is read,
and the file is replaced with a report without any subgroup (`maxSl` empty lists). There is a message for each line that the beginning of the output itself has on the disk when it is read
as input: none, if nothing of it has been handed over by then (Python hands over nothing before 8192 characters, and the beginning is shorter). -/
theorem C88_lists (M : Miner G C) (maxSl : Nat) (df : Frame) (target : Str × Str) (hf : NominalFrame df target) (h0 : df.nrows ≠ 0) (sched : Nat → Nat)
    (files : Nat → Option Str) (p : Nat) :
    (listOpsAt M maxSl df target sched files p p none).2 = none ∧
    ∃ n, OutFile.run sched 0 ⟨files p, none⟩ (listOpsAt M maxSl df target sched files p p none).1 =
      ⟨some (fileText (infoLines df.nrows (positives df target) (negatives df target) df.cols.length) ++ c!"Reading input file.\n" ++ notLoadedLines 0 n ++
        c!"Read subgroups: 0.\nInput file read.\n\n\n" ++
        (List.replicate maxSl (fileText (listLines [] (positives df target) (negatives df target) ++ [[]]))).flatten), none⟩ ∧
      (sched 1 = 0 → sched 2 = 0 → n = 0) := by
  obtain ⟨P, hP, hc⟩ := isClasses_mask hf
  have hn : df.nominal = true := by
    unfold Frame.nominal
    rw [List.all_eq_true]
    intro c hc
    rw [List.all_eq_true]
    intro v hv
    obtain ⟨s, rfl⟩ := hf.texts c hc v hv
    rfl
  have hlen : P.length = df.nrows := hc.lenP
  have hones := ones_not P
  have i1 := info_text hc
  have hpos : Bits.ones P = positives df target := by
    unfold positives
    apply Bits.ones_eq_length _ _ (List.nodup_range.filter _)
    intro i
    rw [List.mem_filter, List.mem_range, decide_eq_true_eq, ← hc.pos i]
    refine ⟨fun h => h.2, fun h => ⟨?_, h⟩⟩
    by_contra hn
    rw [Bits.get_ge _ _ (by rw [hc.lenP]; omega)] at h; cases h
  have hneg : (Bits.not P).ones = negatives df target := by
    unfold negatives
    apply Bits.ones_eq_length _ _ (List.nodup_range.filter _)
    intro i
    rw [List.mem_filter, List.mem_range, decide_eq_true_eq, ← hc.neg i]
  obtain ⟨l0, hl0⟩ : ∃ l0, SubgroupList.new P (Bits.not P) P.length = .ok l0 := by
    unfold SubgroupList.new
    have : (Bits.not P).length = P.length := by simp [Bits.not]
    rw [if_neg (by simp), if_neg (by simp [this])]
    exact ⟨_, rfl⟩
  have htext : listText l0 = fileText (listLines [] (positives df target) (negatives df target) ++ [[]]) := by
    have h1 := C66_text P (Bits.not P) [] l0 hl0
    have h2 : l0.run [] = l0 := rfl
    have h3 : stackCands P.length [] = [] := rfl
    rw [h2, h3] at h1
    unfold listText
    rw [h1]
    unfold candLines
    simp only [List.map_nil, restRows_nil, hpos, hneg, entriesOfCands, fileText_append]
    rfl
  obtain ⟨D, B, d1, d2⟩ := run_open [datasetInfo df P, c!"Reading input file.\n"] ⟨files p, none⟩ rfl sched
  have hops : listOpsAt M maxSl df target sched files p p none = listOps M maxSl df target D := by
    unfold listOpsAt
    rw [if_neg h0, hn, hP]
    simp only [Bool.not_true, Bool.false_eq_true, if_false, if_true]
    have : (OutFile.run sched 0 ⟨files p, none⟩ [.openW, .write (datasetInfo df P), .write c!"Reading input file.\n"]).disk = some D := by
      have := congrArg OutFile.disk d1
      exact this
    rw [this]
  have hsemi : ∀ l ∈ fileLines D, ';' ∉ l := by
    intro l hl hs
    refine no_semi_header df P ?_
    have : D ++ B = datasetInfo df P ++ c!"Reading input file.\n" := by simpa using d2
    rw [← this]
    exact List.mem_append_left _ (fileLines_chars hl hs)
  have hload : loadCandidates df.nrows D = .ok ([], c!"Reading input file.\n" ++ notLoadedLines 0 (fileLines D).length ++ (c!"Read subgroups: " ++ natStr 0 ++ c!".\n") ++ c!"Input file read.\n\n\n") := by
    unfold loadCandidates
    rw [load_none df.nrows (fileLines D) hsemi 0]
  have hrun : listRun M maxSl df target D = .ok (fileText (infoLines df.nrows (positives df target) (negatives df target) df.cols.length) ++ c!"Reading input file.\n" ++ notLoadedLines 0 (fileLines D).length ++
        c!"Read subgroups: 0.\nInput file read.\n\n\n" ++
        (List.replicate maxSl (fileText (listLines [] (positives df target) (negatives df target) ++ [[]]))).flatten) := by
    unfold listRun
    rw [if_neg h0, hn, hP, hload]
    have hfit : listFit M maxSl df target (.ok []) = .ok (List.replicate maxSl l0) := by
      unfold listFit
      rw [if_neg h0, hn, hP, ← hlen]
      simp only [Bool.not_true, Bool.false_eq_true, if_false, List.map_nil, hl0]
      exact buildLists_none M l0 maxSl
    simp only [Bool.not_true, Bool.false_eq_true, if_false, hfit]
    rw [i1]
    have hr : (List.replicate maxSl l0).flatMap listText = (List.replicate maxSl (fileText (listLines [] (positives df target) (negatives df target) ++ [[]]))).flatten := by
      rw [← htext, List.flatMap_def, List.map_replicate]
    rw [hr]
    have h00 : natStr 0 = c!"0" := by decide +kernel
    rw [h00]
    congr 1
    simp only [List.append_assoc]
    rfl
  rw [hops]
  obtain ⟨r1, r2, -⟩ := (C73_lists M maxSl df target D hf.wf ⟨files p, none⟩ rfl sched).1 _ hrun
  refine ⟨r1, _, r2, fun s1 s2 => ?_⟩
  have hD : D = [] := by
    have : OutFile.run sched 0 ⟨files p, none⟩ (.openW :: [datasetInfo df P, c!"Reading input file.\n"].map .write) =
        shape [] [] (datasetInfo df P ++ c!"Reading input file.\n") := by
      simp only [OutFile.run, List.map_cons, List.map_nil]
      rw [open_shape, write_shape, s1, write_shape, s2]
      simp [stale]
    rw [this] at d1
    have := congrArg OutFile.disk d1
    simp [shape] at this
    exact this
  rw [hD]
  rfl

/-- **C88.** With two different paths, the input file decides (C66, C73) and the operations concern the output file only; without an input file, `fit` raises `FileNotFoundError` when the
output file has already been emptied, and leaves it open. -/
theorem C88_paths (M : Miner G C) (maxSl : Nat) (df : Frame) (target : Str × Str) (hf : NominalFrame df target) (h0 : df.nrows ≠ 0) (sched : Nat → Nat)
    (files : Nat → Option Str) (inp out : Nat) (hne : inp ≠ out) :
    (∀ t, files inp = some t → listOpsAt M maxSl df target sched files inp out none = listOps M maxSl df target t) ∧
    (files inp = none → (listOpsAt M maxSl df target sched files inp out none).2 = some .fileNotFound ∧
      ∃ D B, OutFile.run sched 0 ⟨files out, none⟩ (listOpsAt M maxSl df target sched files inp out none).1 = ⟨some D, some (D.length, B)⟩ ∧
        D ++ B = fileText (infoLines df.nrows (positives df target) (negatives df target) df.cols.length) ++ c!"Reading input file.\n") := by
  obtain ⟨P, hP, hc⟩ := isClasses_mask hf
  have hn : df.nominal = true := by
    unfold Frame.nominal
    rw [List.all_eq_true]
    intro c hc
    rw [List.all_eq_true]
    intro v hv
    obtain ⟨s, rfl⟩ := hf.texts c hc v hv
    rfl
  constructor
  · intro t ht
    unfold listOpsAt
    rw [if_neg h0, hn, hP]
    simp only [Bool.not_true, Bool.false_eq_true, if_false, if_neg hne, ht]
  · intro hnone
    have hops : listOpsAt M maxSl df target sched files inp out none =
        (.openW :: [datasetInfo df P, c!"Reading input file.\n"].map .write, some .fileNotFound) := by
      unfold listOpsAt
      rw [if_neg h0, hn, hP]
      simp only [Bool.not_true, Bool.false_eq_true, if_false, if_neg hne, hnone]
      rfl
    rw [hops]
    obtain ⟨D, B, d1, d2⟩ := run_open [datasetInfo df P, c!"Reading input file.\n"] ⟨files out, none⟩ rfl sched
    refine ⟨rfl, D, B, d1, ?_⟩
    rw [d2, ← info_text hc]
    simp

end
end

/-- the hypotheses hold for a frame, with a file of candidates that the call destroys -/
example : NominalFrame smallFrame (c!"t", c!"y") ∧ smallFrame.nrows ≠ 0 ∧
    (OutFile.run (fun _ => 0) 0 ⟨some c!"Description: [a = 'x'], Target: t = 'y' ; 10 ; 01\n", none⟩
      (listOpsAt toyMiner 1 smallFrame (c!"t", c!"y") (fun _ => 0) (fun _ => some c!"Description: [a = 'x'], Target: t = 'y' ; 10 ; 01\n") 5 5 none).1).disk ≠
    (OutFile.run (fun _ => 0) 0 ⟨none, none⟩
      (listOpsAt toyMiner 1 smallFrame (c!"t", c!"y") (fun _ => 0) (fun p => if p = 5 then some c!"Description: [a = 'x'], Target: t = 'y' ; 10 ; 01\n" else none) 5 6 none).1).disk := by
  refine ⟨⟨?_, by decide, ?_, by decide⟩, by decide, ?_⟩
  · intro c hc
    simp [smallFrame] at hc
    rcases hc with rfl | rfl <;> rfl
  · intro c hc v hv
    simp [smallFrame] at hc
    rcases hc with rfl | rfl <;> (simp at hv; rcases hv with rfl | rfl <;> exact ⟨_, rfl⟩)
  · decide +kernel

end Verif

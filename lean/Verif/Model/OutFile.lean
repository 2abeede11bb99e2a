import Verif.Model.SDMap
import Verif.Model.ListFile
/-! Model of the result files seen from outside: what is on the disk at each moment of `fit`, whatever the buffering, and what a run that is interrupted or
raises leaves behind. `sdmap.py:150-183`, `:243-274`; `vlsd.py:186-220`, `:330-395`; `gmsl.py:145-272`, `psld.py:88-170`, `dslm.py:97-196`. -/
namespace Verif

/-- the file of `file_path` and the object that `open(file_path, "w")` returned (the attribute `_file`), if it is still there. `handle` holds the number of
characters already handed over to the operating system and the text that is still in the buffers of Python. Simplifications: positions are counted in
characters, nobody else uses the file (`Model/World` has several objects on one disk), and the operations on the disk do not fail. -/
structure OutFile where
  disk : Option Str
  handle : Option (Nat × Str)
  deriving DecidableEq

namespace OutFile

/-- `write(fd, t)` at offset `pos`: the characters there are replaced, a gap is filled with zeros -/
def overlay (disk : Str) (pos : Nat) (t : Str) : Str :=
  disk.take pos ++ List.replicate (pos - disk.length) '\x00' ++ t ++ disk.drop (pos + t.length)

/-- the first `k` characters of the buffer are handed over -/
def flush (k : Nat) (o : OutFile) : OutFile :=
  match o.handle with
  | none => o
  | some (p, b) =>
    if b.take k = [] then o
    else ⟨some (overlay (o.disk.getD []) p (b.take k)), some (p + (b.take k).length, b.drop k)⟩

/-- the whole buffer is handed over: `close()`, or the finalizer of a file object nobody refers to -/
def flushAll (o : OutFile) : OutFile :=
  match o.handle with
  | none => o
  | some (_, b) => o.flush b.length

inductive Op where
  /-- `self._file = open(self._file_path, "w")`, `sdmap.py:270` -/
  | openW
  /-- `self._file.write(t)`, `sdmap.py:174-179` -/
  | write (t : Str)
  /-- `self._file.close()`, `self._file = None`, `sdmap.py:273-274` -/
  | close
  deriving DecidableEq

/-- An operation. `k` says how much of the buffer Python hands over afterwards: any amount. `open` empties the file; then the assignment drops the file object of
an earlier run, if it is still there, and its finalizer writes what it has in its buffer, at its own position, into the file just emptied. -/
def step (k : Nat) (o : OutFile) : Op → OutFile
  | .openW => ⟨(flushAll ⟨some [], o.handle⟩).disk, some (0, [])⟩
  | .write t => match o.handle with
    | none => o
    | some (p, b) => flush k ⟨o.disk, some (p, b ++ t)⟩
  | .close => ⟨(flushAll o).disk, none⟩

/-- some operations; `sched i` is the amount handed over after the `i`-th -/
def run (sched : Nat → Nat) : Nat → OutFile → List Op → OutFile
  | _, o, [] => o
  | i, o, op :: ops => run sched (i + 1) (o.step (sched i) op) ops

end OutFile

/-! ### SDMap -/

/-- the texts written for a result, `sdmap.py:174-179`. The name of the measure and the text of a float are parameters. -/
def ResultLine.parts (name : Str) (floatStr : Rat → Str) (l : ResultLine) : List Str :=
  [l.subgroup.str ++ c!" ; ",
   c!"Quality Measure " ++ name ++ c!" = " ++ floatStr l.quality ++ c!" ; ",
   c!"tp = " ++ natStr l.tp ++ c!" ; ",
   c!"fp = " ++ natStr l.fp ++ c!" ; ",
   c!"TP = " ++ natStr l.TP ++ c!" ; ",
   c!"FP = " ++ natStr l.FP ++ c!"\n"]

/-- what `fit` does to the object and to its file, one after the other; after `raised` the method is left -/
inductive SDMapEvent where
  | file (op : OutFile.Op)
  /-- `self._selected_subgroups = self._selected_subgroups + 1`, `sdmap.py:181` -/
  | selected
  /-- `self._unselected_subgroups = self._unselected_subgroups + 1`, `sdmap.py:183` -/
  | unselected
  | raised (e : PyErr)
  deriving DecidableEq

/-- an `SDMap` object with `write_results_in_file = True`, and its file -/
structure SDMapObj where
  selected : Nat
  unselected : Nat
  out : OutFile
  deriving DecidableEq

def SDMapObj.step (k : Nat) (o : SDMapObj) : SDMapEvent → SDMapObj
  | .file op => { o with out := o.out.step k op }
  | .selected => { o with selected := o.selected + 1 }
  | .unselected => { o with unselected := o.unselected + 1 }
  | .raised _ => o

/-- the events of a run (or the first ones of them, when it is interrupted), with the amounts handed over -/
def SDMapObj.run (sched : Nat → Nat) : Nat → SDMapObj → List SDMapEvent → SDMapObj
  | _, o, [] => o
  | i, o, e :: es => SDMapObj.run sched (i + 1) (o.step (sched i) e) es

/-- the calls of `_handle_individual_result` and the end of `fit`, `sdmap.py:150-183`, `:271-274` -/
def SDMapConfig.resultEvents (cfg : SDMapConfig) (name : Str) (floatStr : Rat → Str) (target : Str × Str) (TP FP : Nat) :
    List (Pattern × Cnt) → List SDMapEvent
  | [] => [.file .close]
  | r :: rs =>
    match cfg.measure (paramsFor r.2.1 r.2.2 TP FP cfg.extra) with
    | .error e => [.raised e]
    | .ok q =>
      if q ≥ cfg.minQuality then
        ((⟨⟨r.1, ⟨target.1, .equal, .str target.2⟩⟩, q, r.2.1, r.2.2, TP, FP⟩ : ResultLine).parts name floatStr).map (fun t => .file (.write t)) ++
          .selected :: SDMapConfig.resultEvents cfg name floatStr target TP FP rs
      else .unselected :: SDMapConfig.resultEvents cfg name floatStr target TP FP rs

/-- `SDMap.fit`, `sdmap.py:243-274` -/
def SDMapConfig.events (cfg : SDMapConfig) (name : Str) (floatStr : Rat → Str) (df : Frame) (target : Str × Str) : List SDMapEvent :=
  match nominalResults FPTree.sorted cfg.th df target with
  | .error e => [.raised e]
  | .ok (none, _, _) => []
  | .ok (some rs, TP, FP) => .file .openW :: cfg.resultEvents name floatStr target TP FP (rs.map (fun r => (Pattern.new r.1, r.2)))

/-! ### The subgroup list algorithms -/

variable {G C : Type}

/-- the loop of `_load_candidates`, `gmsl.py:166-189`: the texts written and how the loop ends. Simplification: the texts written for one line of the input count as one. -/
def loadWrites (n : Nat) : List Str → LoadState → List Str × Except PyErr LoadState
  | [], st => ([], .ok st)
  | line :: ls, st =>
    match loadLine n st.lineNumber line with
    | .error e => ([], .error e)
    | .ok (some c, w) =>
      let r := loadWrites n ls ⟨st.cands ++ [c], st.log ++ w, st.lineNumber + 1, st.read + 1⟩
      (r.1, r.2)
    | .ok (none, w) =>
      let r := loadWrites n ls ⟨st.cands, st.log ++ w, st.lineNumber + 1, st.read⟩
      (w :: r.1, r.2)

/-- the loop over the subgroup lists, `gmsl.py:229-270`, `psld.py:125-168`, `dslm.py:132-194`: each list is written when it is complete -/
def listWrites (M : Miner G C) (l0 : SubgroupList) : Nat → List (Option Cand) → List Str × Option PyErr
  | 0, _ => ([], none)
  | k + 1, cs =>
    match buildList M (remaining cs + 1) l0 M.init cs with
    | .error e => ([], some e)
    | .ok none => ([], none)
    | .ok (some (sl, cs')) =>
      let r := listWrites M l0 k cs'
      (listText sl :: r.1, r.2)

/-- `fit` of the three algorithms, `gmsl.py:194-272`, `psld.py:88-170`, `dslm.py:97-196`: the operations on the output file, and the exception, if any. An exception after
the file was opened leaves it open. Simplification: the input file exists and is not the output file (`listOpsAt` in `Model/World` lifts this). -/
def listOps (M : Miner G C) (maxSl : Nat) (df : Frame) (target : Str × Str) (input : Str) : List OutFile.Op × Option PyErr :=
  if df.nrows = 0 then ([], some .valueError)
  else if !df.nominal then ([], some .datasetAttributeType)
  else match targetMask df target with
    | .error e => ([], some e)
    | .ok mask => match SubgroupList.new mask (Bits.not mask) df.nrows with
      | .error e => ([], some e)
      | .ok l0 =>
        let start := [OutFile.Op.openW, .write (datasetInfo df mask), .write c!"Reading input file.\n"]
        let load := loadWrites df.nrows (fileLines input) ⟨[], c!"Reading input file.\n", 1, 0⟩
        match load.2 with
        | .error e => (start ++ load.1.map .write, some e)
        | .ok st =>
          let before := start ++ load.1.map .write ++
            [.write (c!"Read subgroups: " ++ natStr st.read ++ c!".\n"), .write c!"Input file read.\n\n\n"]
          let lists := listWrites M l0 maxSl (st.cands.map some)
          match lists.2 with
          | some e => (before ++ lists.1.map .write, some e)
          | none => (before ++ lists.1.map .write ++ [.close], none)

end Verif

import Verif.Model.ResultFiles
import Verif.Model.Files
/-! Model of several algorithm objects that work on one disk, at the same time or one after the other (each object with the path given to its constructor,
`sdmap.py:104-107`, `vlsd.py:131-134`, `bsd.py:105-108`, and its own attribute `_file`), and of functions whose input file is their output file
(`gmsl.py:152-192`, `:218-227`, `file_format_transformations.py:14-37`). -/
namespace Verif

/-- an algorithm object as far as its counters and the attribute `_file` go; `handle` as in `OutFile` -/
structure WorldObj where
  selected : Nat
  unselected : Nat
  handle : Option (Nat × Str)
  deriving DecidableEq

/-- the files of the disk, by path, and the objects, by number. Simplification: a path is the identity of a file (links and relative names are resolved). -/
structure World where
  files : Nat → Option Str
  objs : Nat → WorldObj

/-- one event of one object, and how much of its buffer is handed over to the operating system afterwards -/
structure Turn where
  obj : Nat
  amount : Nat
  event : SDMapEvent
  deriving DecidableEq

namespace World

/-- object `i` with the file it writes to (`self._file_path`) -/
def view (path : Nat → Nat) (w : World) (i : Nat) : SDMapObj :=
  ⟨(w.objs i).selected, (w.objs i).unselected, ⟨w.files (path i), (w.objs i).handle⟩⟩

/-- an event of an object changes this object and its file; `sdmap.py:150-183`, `:268-274`, `vlsd.py:184-220`, `:344-346`, `bsd.py:441-466` -/
def turn (path : Nat → Nat) (w : World) (t : Turn) : World :=
  let o := (w.view path t.obj).step t.amount t.event
  ⟨fun p => if p = path t.obj then o.out.disk else w.files p,
   fun i => if i = t.obj then ⟨o.selected, o.unselected, o.out.handle⟩ else w.objs i⟩

/-- events of several objects, in the order in which they happen -/
def run (path : Nat → Nat) (w : World) (ts : List Turn) : World := ts.foldl (turn path) w

end World

/-! ### Functions that read one file and write another one, possibly the same -/

/-- the disk with another contents of one file -/
def putFile (files : Nat → Option Str) (p : Nat) (t : Str) : Nat → Option Str := fun q => if q = p then some t else files q

/-- `to_input_format_for_subgroup_list_algorithms`, `file_format_transformations.py:14-37`: `inp` is opened for reading, then `out` is opened and emptied, and then `inp` is read.
Returned: the disk afterwards and the tuple. Simplification: when the two are the same file, no output reaches the disk before the end of the input (which is met at once). -/
def transformAt (files : Nat → Option Str) (inp out : Nat) : Except PyErr ((Nat → Option Str) × Int × Int) :=
  match files inp with
  | none => .error .fileNotFound
  | some _ =>
    let emptied := putFile files out []
    let r := transformFile ((emptied inp).getD [])
    .ok (putFile emptied out r.1, r.2)

/-- `fit` of the three subgroup list algorithms with the paths `inp` (`input_file_path`) and `out` (`output_file_path`), `gmsl.py:194-272`, `:152-192`: the operations on the output file
and the exception, if any. `handle` is an output file that an earlier call left open. The input is opened when the output has been opened (and emptied) and the first texts have been written.
Simplification: when the two are the same file, the lines read are those on the disk when it is opened for reading. -/
def listOpsAt {G C : Type} (M : Miner G C) (maxSl : Nat) (df : Frame) (target : Str × Str) (sched : Nat → Nat) (files : Nat → Option Str) (inp out : Nat)
    (handle : Option (Nat × Str)) : List OutFile.Op × Option PyErr :=
  if df.nrows = 0 then ([], some .valueError)
  else if !df.nominal then ([], some .datasetAttributeType)
  else match targetMask df target with
    | .error e => ([], some e)
    | .ok mask =>
      let start := [OutFile.Op.openW, .write (datasetInfo df mask), .write c!"Reading input file.\n"]
      let input := if inp = out then (OutFile.run sched 0 ⟨files out, handle⟩ start).disk else files inp
      match input with
      | none => (start, some .fileNotFound)
      | some t => listOps M maxSl df target t

end Verif

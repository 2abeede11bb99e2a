import Verif.Model.Subgroup
import Verif.Model.Bits
/-! Model of `src/subgroups/data_structures/subgroup_list.py`. Copies made "to avoid aliasing" are the identity: values
have no identity in this module (`Model/Alias` models the objects and their sharing; C72 relates the two). -/
namespace Verif

/-- the object's fields (`subgroup_list.py:20`) -/
structure SubgroupList where
  defPos : Bits
  defNeg : Bits
  /-- `_dataset_target_distribution` : (number of positives, number of rows) -/
  dist : Nat × Nat
  subs : List Subgroup
  pos : List Bits
  neg : List Bits
  origPos : List Bits
  origNeg : List Bits

namespace SubgroupList

/-- `SubgroupList.__init__`, `subgroup_list.py:22-46` -/
def new (p n : Bits) (rows : Nat) : Except PyErr SubgroupList :=
  if rows ≠ p.length then .error .valueError
  else if rows ≠ n.length then .error .valueError
  else .ok ⟨p, n, (p.ones, rows), [], [], [], [], []⟩

/-- `SubgroupList.add_subgroup`, `subgroup_list.py:76-111` -/
def add (l : SubgroupList) (s : Subgroup) (p n : Bits) : Except PyErr SubgroupList :=
  if l.dist.2 ≠ p.length then .error .valueError
  else if l.dist.2 ≠ n.length then .error .valueError
  else
    let p' := p.and l.defPos
    let n' := n.and l.defNeg
    .ok { l with
      origPos := l.origPos ++ [p], origNeg := l.origNeg ++ [n],
      defPos := l.defPos.and p'.not, defNeg := l.defNeg.and n'.not,
      subs := l.subs ++ [s], pos := l.pos ++ [p'], neg := l.neg ++ [n'] }

/-- `SubgroupList.delete_last_subgroup`, `subgroup_list.py:113-125` (`list.pop()` drops the last element) -/
def deleteLast (l : SubgroupList) : SubgroupList :=
  if l.subs.length > 0 then
    { l with
      subs := l.subs.dropLast, pos := l.pos.dropLast, neg := l.neg.dropLast,
      origPos := l.origPos.dropLast, origNeg := l.origNeg.dropLast,
      defPos := l.defPos.or (l.pos.getLastD []), defNeg := l.defNeg.or (l.neg.getLastD []) }
  else l

/-- `len(l)`, `subgroup_list.py:160-161` -/
def len (l : SubgroupList) : Nat := l.subs.length

/-- `list[index]` of Python -/
def pyGet {α : Type} (l : List α) (i : Int) : Except PyErr α :=
  match pyIndex l.length i with
  | none => .error .indexError
  | some k => match l[k]? with
    | some x => .ok x
    | none => .error .indexError

/-- `is_empty`, `subgroup_list.py:73-74` -/
def isEmpty (l : SubgroupList) : Bool := l.subs.length == 0
/-- `dataset_target_distribution`, `subgroup_list.py:54-55` -/
def targetDistribution (l : SubgroupList) : Except PyErr Rat := if l.dist.2 = 0 then .error .zeroDivisionError else .ok ((l.dist.1 : Rat) / (l.dist.2 : Rat))
/-- `dataset_number_of_positives`, `subgroup_list.py:57-58` -/
def numPositives (l : SubgroupList) : Int := l.dist.1
/-- `dataset_number_of_negatives`, `subgroup_list.py:60-61` -/
def numNegatives (l : SubgroupList) : Int := (l.dist.2 : Int) - (l.dist.1 : Int)
/-- `number_of_dataset_instances`, `subgroup_list.py:63-64` -/
def numInstances (l : SubgroupList) : Int := l.dist.2
/-- `get_subgroup`, `subgroup_list.py:127-130` -/
def getSubgroup (l : SubgroupList) (i : Int) : Except PyErr Subgroup := pyGet l.subs i
/-- `get_subgroup_bitarray_of_positives`, `subgroup_list.py:132-137` -/
def getPos (l : SubgroupList) (i : Int) : Except PyErr Bits := pyGet l.pos i
/-- `get_subgroup_bitarray_of_negatives`, `subgroup_list.py:139-144` -/
def getNeg (l : SubgroupList) (i : Int) : Except PyErr Bits := pyGet l.neg i
/-- `get_subgroup_original_bitarray_of_positives`, `subgroup_list.py:146-151` -/
def getOrigPos (l : SubgroupList) (i : Int) : Except PyErr Bits := pyGet l.origPos i
/-- `get_subgroup_original_bitarray_of_negatives`, `subgroup_list.py:153-158` -/
def getOrigNeg (l : SubgroupList) (i : Int) : Except PyErr Bits := pyGet l.origNeg i

end SubgroupList

/-- a call of a mutating method -/
inductive SLOp
  | add (s : Subgroup) (p n : Bits)
  | deleteLast

/-- perform the call; an exception leaves the object as it was (all checks precede the first update, lines 83-92) -/
def SubgroupList.step (l : SubgroupList) : SLOp → SubgroupList
  | .add s p n => match l.add s p n with | .ok l' => l' | .error _ => l
  | .deleteLast => l.deleteLast

def SubgroupList.run (l : SubgroupList) (ops : List SLOp) : SubgroupList := ops.foldl SubgroupList.step l

end Verif

import Verif.Model.SubgroupList
/-! `Pattern`, `Subgroup`, `SubgroupList` and `bitarray` as mutable objects: a heap with references. The other modules take the values of these objects; this one models which
objects are shared and which are copied. -/
namespace Verif

/-- the fields of a `SubgroupList` object, `subgroup_list.py:20`: references of bitarrays and of subgroups -/
structure ListObj where
  defPos : Nat
  defNeg : Nat
  dist : Nat × Nat
  subs : List Nat
  pos : List Nat
  neg : List Nat
  origPos : List Nat
  origNeg : List Nat
  deriving DecidableEq

/-- all the objects of a program. A reference is a position. A `Subgroup` holds the reference of its description, `core/subgroup.py:27-28`; a `Selector` is immutable. -/
structure Memory where
  pats : List Pattern
  sgs : List (Nat × Selector)
  bits : List Bits
  lists : List ListObj

namespace Memory

def empty : Memory := ⟨[], [], [], []⟩

/-- the value of a pattern object -/
def pat (h : Memory) (r : Nat) : Pattern := h.pats.getD r ⟨[]⟩
/-- the value of a bitarray object -/
def bit (h : Memory) (r : Nat) : Bits := h.bits.getD r []
/-- the value of a subgroup object: the value of its description, and its target -/
def subgroup (h : Memory) (g : Nat) : Subgroup := ⟨h.pat (h.sgs.getD g (0, ⟨[], .equal, .int 0⟩)).1, (h.sgs.getD g (0, ⟨[], .equal, .int 0⟩)).2⟩
/-- the value of a subgroup list -/
def listVal (h : Memory) (l : ListObj) : SubgroupList :=
  ⟨h.bit l.defPos, h.bit l.defNeg, l.dist, l.subs.map h.subgroup, l.pos.map h.bit, l.neg.map h.bit, l.origPos.map h.bit, l.origNeg.map h.bit⟩

/-- `Pattern(list_of_selectors)`, `core/pattern.py:24-36`: a new object with a list of its own -/
def newPattern (h : Memory) (l : List Selector) : Memory := { h with pats := h.pats ++ [Pattern.new l] }
/-- `pattern.copy()`, `core/pattern.py:82-90` -/
def copyPattern (h : Memory) (r : Nat) : Memory := { h with pats := h.pats ++ [(h.pat r).copy] }
/-- a method that changes the pattern object `r` -/
def setPattern (h : Memory) (r : Nat) (f : Pattern → Pattern) : Memory := { h with pats := h.pats.modify r f }
/-- `Subgroup(description, target)`, `core/subgroup.py:22-28`: the description is not copied -/
def newSubgroup (h : Memory) (r : Nat) (t : Selector) : Memory := { h with sgs := h.sgs ++ [(r, t)] }
/-- `subgroup.copy()`, `core/subgroup.py:30-36`: a new subgroup with a copy of the description -/
def copySubgroup (h : Memory) (g : Nat) : Memory :=
  { h with pats := h.pats ++ [(h.subgroup g).description.copy], sgs := h.sgs ++ [(h.pats.length, (h.subgroup g).target)] }
/-- a new `bitarray`, or a copy of one -/
def newBits (h : Memory) (b : Bits) : Memory := { h with bits := h.bits ++ [b] }
/-- an in-place operation on the bitarray object `r` -/
def setBits (h : Memory) (r : Nat) (f : Bits → Bits) : Memory := { h with bits := h.bits.modify r f }
/-- a change of the fields of the subgroup list `l` -/
def setList (h : Memory) (l : Nat) (f : ListObj → ListObj) : Memory := { h with lists := h.lists.modify l f }

/-- `SubgroupList(p, n, rows)`, `subgroup_list.py:22-46`: copies of the two bitarrays, lines 34-35. An exception changes nothing. -/
def newList (h : Memory) (p n rows : Nat) : Memory :=
  if rows ≠ (h.bit p).length then h
  else if rows ≠ (h.bit n).length then h
  else
    let h1 := h.newBits (h.bit p)
    let h2 := h1.newBits (h.bit n)
    { h2 with lists := h2.lists ++ [⟨h.bits.length, h.bits.length + 1, ((h.bit p).ones, rows), [], [], [], [], []⟩] }

/-- `l.add_subgroup(g, p, n)`, `subgroup_list.py:76-111`, statement by statement -/
def addSubgroup (h : Memory) (l g p n : Nat) : Memory :=
  match h.lists[l]? with
  | none => h
  | some L =>
    if L.dist.2 ≠ (h.bit p).length then h
    else if L.dist.2 ≠ (h.bit n).length then h
    else
      let b := h.bits.length
      -- lines 94-95: the copies stored as "original"
      let h1 := (h.newBits (h.bit p)).newBits (h.bit n)
      -- lines 97-98: the copies that will depend on the position
      let h2 := (h1.newBits (h.bit p)).newBits (h.bit n)
      -- lines 103-104: `&=` with the bitarrays of the default rule
      let h3 := h2.setBits (b + 2) (fun x => x.and (h2.bit L.defPos))
      let h4 := h3.setBits (b + 3) (fun x => x.and (h3.bit L.defNeg))
      -- lines 106-107: the default rule loses the rows covered
      let h5 := h4.setBits L.defPos (fun x => x.and (h4.bit (b + 2)).not)
      let h6 := h5.setBits L.defNeg (fun x => x.and (h5.bit (b + 3)).not)
      -- line 109: a copy of the subgroup
      let h7 := h6.copySubgroup g
      h7.setList l (fun L => { L with origPos := L.origPos ++ [b], origNeg := L.origNeg ++ [b + 1], subs := L.subs ++ [h.sgs.length], pos := L.pos ++ [b + 2], neg := L.neg ++ [b + 3] })

/-- `l.delete_last_subgroup()`, `subgroup_list.py:113-125` -/
def deleteLast (h : Memory) (l : Nat) : Memory :=
  match h.lists[l]? with
  | none => h
  | some L =>
    if L.subs.length > 0 then
      let h1 := h.setList l (fun L => { L with subs := L.subs.dropLast, pos := L.pos.dropLast, neg := L.neg.dropLast, origPos := L.origPos.dropLast, origNeg := L.origNeg.dropLast })
      let h2 := h1.setBits L.defPos (fun x => x.or (h1.bit (L.pos.getLastD 0)))
      h2.setBits L.defNeg (fun x => x.or (h2.bit (L.neg.getLastD 0)))
    else h

/-- a statement of a client. References can be any: those of objects it made, and those that `description`, `get_subgroup`, `default_rule_bitarray_of_positives`, ... return. -/
inductive Call
  | newPattern (l : List Selector)
  | copyPattern (r : Nat)
  | addSelector (r : Nat) (s : Selector)
  | removeSelector (r : Nat) (s : Selector)
  | removeByIndex (r : Nat) (i : Int)
  | newSubgroup (r : Nat) (t : Selector)
  | copySubgroup (g : Nat)
  | newBits (b : Bits)
  | setBit (r i : Nat) (v : Bool)
  | newList (p n rows : Nat)
  | addSubgroup (l g p n : Nat)
  | deleteLast (l : Nat)

def step (h : Memory) : Call → Memory
  | .newPattern l => h.newPattern l
  | .copyPattern r => h.copyPattern r
  | .addSelector r s => h.setPattern r (fun p => p.add s)
  | .removeSelector r s => h.setPattern r (fun p => p.remove s)
  | .removeByIndex r i => h.setPattern r (fun p => match p.removeByIndex i with | .ok q => q | .error _ => p)
  | .newSubgroup r t => h.newSubgroup r t
  | .copySubgroup g => h.copySubgroup g
  | .newBits b => h.newBits b
  | .setBit r i v => h.setBits r (fun b => b.set i v)
  | .newList p n rows => h.newList p n rows
  | .addSubgroup l g p n => h.addSubgroup l g p n
  | .deleteLast l => h.deleteLast l

def run (h : Memory) (ops : List Call) : Memory := ops.foldl step h

end Memory
end Verif

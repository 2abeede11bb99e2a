import Verif.Model.Selector
import Verif.Model.Registry
/-! The two shared tables of the library, as several threads and the garbage collector see them: the pool of selectors (`Selector._dict_of_selectors`) and the
only instance of each measure (`_singleton`). A step is one access to the shared table; everything between two accesses is private to the thread.
Simplification: an access to the table (`in`, `[]`, assignment) is atomic. -/
namespace Verif

namespace SelPool

/-- where a thread is in `Selector.__new__`, `core/selector.py:29-54` -/
inductive Pc
  | idle
  /-- the key is computed, `:45`; next is `key in Selector._dict_of_selectors`, `:46` -/
  | check (s : Selector)
  /-- the key was there; next is `return Selector._dict_of_selectors[key]`, `:47` -/
  | found (s : Selector)
  /-- the key was not there; next are the new instance and `Selector._dict_of_selectors[key] = new_instance`, `:49-54` -/
  | absent (s : Selector)
  deriving DecidableEq

/-- the end of a call: thread, selector asked for, and the object returned (its number) or the exception -/
structure Outcome where
  thread : Nat
  asked : Selector
  result : Except PyErr Nat
  deriving DecidableEq

/-- `objs`: the fields of all the objects ever created, an object is a position. `pool`: the dictionary, a later entry for the same key is in front. `refs`: the references the program
holds. `log`: the calls that have ended. -/
structure State where
  objs : List Selector
  pool : List (Str × Nat)
  refs : List Nat
  pc : Nat → Pc
  log : List Outcome

/-- a fresh interpreter -/
def init : State := ⟨[], [], [], fun _ => .idle, []⟩

inductive Event
  /-- thread `t` calls `Selector(a, op, v)` -/
  | call (t : Nat) (a : Str) (op : Op) (v : Val)
  /-- thread `t` makes its next access to the dictionary -/
  | step (t : Nat)
  /-- the program gives up one reference to an object -/
  | drop (o : Nat)
  /-- the object is found to be unreachable: its entries disappear from the `WeakValueDictionary` -/
  | collect (o : Nat)
  deriving DecidableEq

def State.setPc (st : State) (t : Nat) (p : Pc) : State := { st with pc := fun u => if u = t then p else st.pc u }

/-- the call of thread `t` ends; an object returned is held by the program -/
def State.finish (st : State) (t : Nat) (s : Selector) (r : Except PyErr Nat) : State :=
  let st := st.setPc t .idle
  { st with
    refs := match r with
      | .ok o => o :: st.refs
      | .error _ => st.refs
    log := st.log ++ [⟨t, s, r⟩] }

/-- one event. A thread that is inside a call does not make another one; an object that the program holds is not collected. -/
def State.event (st : State) : Event → State
  | .call t a op v =>
    match st.pc t with
    | .idle =>
      -- the checks of the arguments, `:36-37`
      if Selector.legal op v then st.setPc t (.check ⟨a, op, v⟩)
      else st.finish t ⟨a, op, v⟩ (.error .valueError)
    | _ => st
  | .step t =>
    match st.pc t with
    | .idle => st
    | .check s => if (st.pool.map (·.1)).contains s.str then st.setPc t (.found s) else st.setPc t (.absent s)
    | .found s =>
      match st.pool.lookup s.str with
      | some o => st.finish t s (.ok o)
      | none => st.finish t s (.error .keyError)
    | .absent s =>
      { st with objs := st.objs ++ [s], pool := (s.str, st.objs.length) :: st.pool.filter (fun e => e.1 ≠ s.str) }.finish t s (.ok st.objs.length)
  | .drop o => { st with refs := st.refs.erase o }
  | .collect o => if st.refs.contains o then st else { st with pool := st.pool.filter (fun e => e.2 ≠ o) }

/-- a schedule -/
def State.run (st : State) (es : List Event) : State := es.foldl State.event st

end SelPool

namespace Single

/-- where a thread is in `__new__` of a measure, e.g. `wracc.py:22-25`: `C` is the class that is called, `home C` the class whose `__new__` runs and whose attribute `_singleton` is used -/
inductive Pc (κ : Type)
  | idle
  /-- next is `if X._singleton is None` -/
  | check (c : κ)
  /-- it was `None`; next is `X._singleton = object().__new__(cls)` -/
  | create (c : κ)
  /-- next is `return X._singleton` -/
  | ret (c : κ)
  deriving DecidableEq

/-- `objs`: the classes of all the objects ever created, an object is a position. `attr`: `X._singleton` of each class, absent = `None`. `log`: thread, class called, what was returned (`none` is `None`). -/
structure State (κ : Type) where
  objs : List κ
  attr : List (κ × Nat)
  pc : Nat → Pc κ
  log : List (Nat × κ × Option Nat)

variable {κ : Type} [DecidableEq κ]

def init : State κ := ⟨[], [], fun _ => .idle, []⟩

inductive Event (κ : Type)
  /-- thread `t` calls the class `c` -/
  | call (t : Nat) (c : κ)
  /-- thread `t` makes its next access to the attribute -/
  | step (t : Nat)
  deriving DecidableEq

def State.setPc (st : State κ) (t : Nat) (p : Pc κ) : State κ := { st with pc := fun u => if u = t then p else st.pc u }

/-- one event -/
def State.event (home : κ → κ) (st : State κ) : Event κ → State κ
  | .call t c =>
    match st.pc t with
    | .idle => st.setPc t (.check c)
    | _ => st
  | .step t =>
    match st.pc t with
    | .idle => st
    | .check c => if (st.attr.lookup (home c)).isNone then st.setPc t (.create c) else st.setPc t (.ret c)
    | .create c => { st with objs := st.objs ++ [c], attr := (home c, st.objs.length) :: st.attr.filter (fun e => e.1 ≠ home c) }.setPc t (.ret c)
    | .ret c => { st with log := st.log ++ [(t, c, st.attr.lookup (home c))] }.setPc t .idle

/-- a schedule -/
def State.run (home : κ → κ) (st : State κ) (es : List (Event κ)) : State κ := es.foldl (State.event home) st

end Single
end Verif

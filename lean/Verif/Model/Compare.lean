import Verif.Model.Subgroup
/-! Comparisons, membership, hashing and the checks of the core classes on objects of any type: the comparison protocol of Python with the methods of `core/operator.py`, `core/selector.py`, `core/pattern.py`
and `core/subgroup.py`. -/
namespace Verif
namespace Compare

/-- a Python object. `val`: a text, an `int` or a finite `float` (a `bool` counts as an `int` in comparisons); `other`: an object of another class that inherits the comparisons of `object`, with its identity.
Simplification: no subclasses of the classes of the library (Python would try the method of a subclass first), and the identity of an object matters only for `other`. -/
inductive Any
  | none
  | val (v : Val)
  | op (o : Op)
  | sel (s : Selector)
  | pat (p : Pattern)
  | sub (s : Subgroup)
  | other (id : Nat)
  deriving DecidableEq

/-- the six comparisons -/
inductive Cmp
  | eq | ne | lt | gt | le | ge
  deriving DecidableEq

/-- the comparison with exchanged operands -/
def Cmp.swap : Cmp → Cmp
  | .eq => .eq | .ne => .ne | .lt => .gt | .gt => .lt | .le => .ge | .ge => .le

/-- the comparison methods of `str`, `int` and `float`; `none` is `NotImplemented` (between a text and a number) -/
def valMethod (c : Cmp) (v w : Val) : Option Bool :=
  if v.isStr = w.isStr then
    match c with
    | .eq => some (v.eq w)
    | .ne => some (!v.eq w)
    | .lt => (v.lt? w).toOption
    | .gt => (w.lt? v).toOption
    | .le => (v.le? w).toOption
    | .ge => (w.le? v).toOption
  else Option.none

/-- the method of the first operand for a comparison. `none` is `NotImplemented`. `core/operator.py:77-105`, `core/selector.py:106-178`, `core/pattern.py:148-166`, `core/subgroup.py:97-105`: an object of another
type is refused; patterns and subgroups only have `__eq__` and `__ne__`. -/
def method (c : Cmp) (a b : Any) : Except PyErr (Option Bool) :=
  match a with
  | .op o => match b with
    | .op o' => .ok (some (match c with
      | .eq => o.eq o' | .ne => o.ne o' | .lt => o.lt o' | .gt => o.gt o' | .le => o.le o' | .ge => o.ge o'))
    | _ => .error .typeError
  | .sel s => match b with
    | .sel t => .ok (some (match c with
      | .eq => s.eq t | .ne => s.ne t | .lt => s.lt t | .gt => s.gt t | .le => s.le t | .ge => s.ge t))
    | _ => .error .typeError
  | .pat p => match c with
    | .eq => match b with
      | .pat q => .ok (some (p.eq q))
      | _ => .error .typeError
    | .ne => match b with
      | .pat q => .ok (some (p.ne q))
      | _ => .error .typeError
    | _ => .ok Option.none
  | .sub s => match c with
    | .eq => match b with
      | .sub t => .ok (some (s.eq t))
      | _ => .error .typeError
    | .ne => match b with
      | .sub t => .ok (some (s.ne t))
      | _ => .error .typeError
    | _ => .ok Option.none
  | .val v => match b with
    | .val w => .ok (valMethod c v w)
    | _ => .ok Option.none
  | .none => match c with
    | .eq => .ok (if b = .none then some true else Option.none)
    | .ne => .ok (if b = .none then some false else Option.none)
    | _ => .ok Option.none
  | .other i => match c with
    | .eq => .ok (if b = .other i then some true else Option.none)
    | .ne => .ok (if b = .other i then some false else Option.none)
    | _ => .ok Option.none

/-- `a == b`, `a < b`, ... (`PyObject_RichCompare`): the method of the first operand, then the reflected method of the second one, then the identity (for `==` and `!=`) or a `TypeError` -/
def compare (c : Cmp) (a b : Any) : Except PyErr Bool :=
  match method c a b with
  | .error e => .error e
  | .ok (some r) => .ok r
  | .ok Option.none =>
    match method c.swap b a with
    | .error e => .error e
    | .ok (some r) => .ok r
    | .ok Option.none =>
      match c with
      | .eq => .ok (decide (a = b))
      | .ne => .ok (decide (a ≠ b))
      | _ => .error .typeError

/-- `x in [a, b, ...]`: the elements are compared in order until one is equal -/
def inList (x : Any) : List Any → Except PyErr Bool
  | [] => .ok false
  | a :: l =>
    match compare .eq a x with
    | .error e => .error e
    | .ok true => .ok true
    | .ok false => inList x l

/-- `hash(x)` for given hash functions of texts and of numbers: `core/operator.py:123-124`, `core/selector.py:190-191`; a class with `__eq__` and without `__hash__` (`Pattern`, `Subgroup`) is not hashable -/
def hash (hs : Str → Int) (hn : Rat → Int) (ho : Nat → Int) (h0 : Int) : Any → Except PyErr Int
  | .none => .ok h0
  | .val (.str s) => .ok (hs s)
  | .val (.int i) => .ok (hn i)
  | .val (.flt f) => .ok (hn f.toRat)
  | .op o => .ok (hn o.value)
  | .sel s => .ok (hs s.str)
  | .pat _ => .error .typeError
  | .sub _ => .error .typeError
  | .other i => .ok (ho i)

/-- look-up among the keys of a dictionary or set, in the order in which they are probed: only a key with the same hash is compared -/
def probe (h : Any → Except PyErr Int) (x : Any) (n : Int) : List Any → Except PyErr Bool
  | [] => .ok false
  | k :: ks =>
    match h k with
    | .error e => .error e
    | .ok m =>
      if m = n then
        match compare .eq k x with
        | .error e => .error e
        | .ok true => .ok true
        | .ok false => probe h x n ks
      else probe h x n ks

/-- `x in {keys}` -/
def inKeys (h : Any → Except PyErr Int) (keys : List Any) (x : Any) : Except PyErr Bool :=
  match h x with
  | .error e => .error e
  | .ok n => probe h x n keys

/-- `set(l)`, the keys in the order of insertion -/
def buildKeys (h : Any → Except PyErr Int) : List Any → List Any → Except PyErr (List Any)
  | keys, [] => .ok keys
  | keys, x :: l =>
    match inKeys h keys x with
    | .error e => .error e
    | .ok true => buildKeys h keys l
    | .ok false => buildKeys h (keys ++ [x]) l

/-! ### `Pattern(list)` on a list of any objects -/

/-- `takeRun` with a comparison that may fail -/
def takeRunE {α : Type} (lt : α → α → Except PyErr Bool) (down : Bool) (prev : α) : List α → Except PyErr (List α × List α)
  | [] => .ok ([], [])
  | x :: xs =>
    match lt x prev with
    | .error e => .error e
    | .ok r =>
      if r = down then
        match takeRunE lt down x xs with
        | .error e => .error e
        | .ok (run, rest) => .ok (x :: run, rest)
      else .ok ([], x :: xs)

/-- `countRun` with a comparison that may fail -/
def countRunE {α : Type} (lt : α → α → Except PyErr Bool) : List α → Except PyErr (List α × List α)
  | [] => .ok ([], [])
  | [a] => .ok ([a], [])
  | a :: b :: l =>
    match lt b a with
    | .error e => .error e
    | .ok true => match takeRunE lt true a (b :: l) with
      | .error e => .error e
      | .ok (run, rest) => .ok ((a :: run).reverse, rest)
    | .ok false => match takeRunE lt false a (b :: l) with
      | .error e => .error e
      | .ok (run, rest) => .ok (a :: run, rest)

/-- `bisectLoop` with a comparison that may fail -/
def bisectE (p : Nat → Except PyErr Bool) (lo hi : Nat) : Except PyErr Nat :=
  if _h : lo < hi then
    match p ((lo + hi) / 2) with
    | .error e => .error e
    | .ok true => bisectE p ((lo + hi) / 2 + 1) hi
    | .ok false => bisectE p lo ((lo + hi) / 2)
  else .ok lo
termination_by hi - lo
decreasing_by all_goals omega

/-- `not pivot < a[i]`, the decision of the binary insertion -/
def pivotE {α : Type} (lt : α → α → Except PyErr Bool) (a : List α) (x : α) (i : Nat) : Except PyErr Bool :=
  match a[i]? with
  | some y => (lt x y).map (!·)
  | none => .ok false

/-- `binaryInsert` with a comparison that may fail -/
def insertE {α : Type} (lt : α → α → Except PyErr Bool) (a : List α) (x : α) : Except PyErr (List α) :=
  match bisectE (pivotE lt a x) 0 a.length with
  | .error e => .error e
  | .ok i => .ok (a.insertIdx i x)

/-- the insertions one after the other -/
def insertAllE {α : Type} (lt : α → α → Except PyErr Bool) : List α → List α → Except PyErr (List α)
  | a, [] => .ok a
  | a, x :: xs =>
    match insertE lt a x with
    | .error e => .error e
    | .ok a' => insertAllE lt a' xs

/-- `list.sort()` with a comparison that may fail (fewer than 64 elements, see `pySort`) -/
def sortE {α : Type} (lt : α → α → Except PyErr Bool) (l : List α) : Except PyErr (List α) :=
  match countRunE lt l with
  | .error e => .error e
  | .ok (run, rest) => insertAllE lt run rest

/-- the loop that skips an element equal to the last one kept, `core/pattern.py:34-36`; `acc` reversed -/
def dedupE : List Any → List Any → Except PyErr (List Any)
  | acc, [] => .ok acc.reverse
  | [], x :: xs => dedupE [x] xs
  | y :: ys, x :: xs =>
    match compare .ne y x with
    | .error e => .error e
    | .ok true => dedupE (x :: y :: ys) xs
    | .ok false => dedupE (y :: ys) xs

/-- `Pattern(list)`, `core/pattern.py:24-36`: the type of the elements is not checked. The result is `_list_of_selectors`. -/
def newAny (l : List Any) : Except PyErr (List Any) :=
  match sortE (compare .lt) l with
  | .error e => .error e
  | .ok s => dedupE [] s

/-- `p[i] < x`, the decision of `bisect_left` -/
def leftE (p : List Any) (x : Any) (i : Nat) : Except PyErr Bool :=
  match p[i]? with
  | some y => compare .lt y x
  | none => .ok false

/-- `pattern.add_selector(x)`, `core/pattern.py:38-50`, on a pattern with any elements -/
def addAny (p : List Any) (x : Any) : Except PyErr (List Any) :=
  match x with
  | .sel _ =>
    match bisectE (leftE p x) 0 p.length with
    | .error e => .error e
    | .ok i =>
      if i = p.length then .ok (p ++ [x])
      else match p[i]? with
        | some t => match compare .ne t x with
          | .error e => .error e
          | .ok true => .ok (p.insertIdx i x)
          | .ok false => .ok p
        | none => .ok p
  | _ => .error .typeError

/-- `pattern.remove_selector(x)`, `core/pattern.py:52-62` -/
def removeAny (p : List Any) (x : Any) : Except PyErr (List Any) :=
  match x with
  | .sel _ =>
    match bisectE (leftE p x) 0 p.length with
    | .error e => .error e
    | .ok i => match p[i]? with
      | some t => match compare .eq t x with
        | .error e => .error e
        | .ok true => .ok (p.eraseIdx i)
        | .ok false => .ok p
      | none => .ok p
  | _ => .error .typeError

/-- `x in pattern`, `core/pattern.py:183-190` -/
def containsAny (p : List Any) (x : Any) : Except PyErr Bool :=
  match x with
  | .sel _ =>
    if p = [] then .ok false
    else match bisectE (leftE p x) 0 p.length with
      | .error e => .error e
      | .ok i => match p[i]? with
        | some t => compare .eq t x
        | none => .ok false
  | _ => .error .typeError

/-- `Subgroup(description, target)`, `core/subgroup.py:22-28` -/
def newSubgroup (d t : Any) : Except PyErr Subgroup :=
  match d with
  | .pat p => match t with
    | .sel s => .ok ⟨p, s⟩
    | _ => .error .typeError
  | _ => .error .typeError

/-- `pattern.is_refinement(x, b)`, `core/pattern.py:112-127`: any object but a pattern lacks `_list_of_selectors` -/
def patRefinement (p : Pattern) (x : Any) (b : Bool) : Except PyErr Bool :=
  match x with
  | .pat q => .ok (p.isRefinement q b)
  | _ => .error .attributeError

/-- `subgroup.is_refinement(x, b)`, `core/subgroup.py:74-81`: any object but a subgroup lacks `description` -/
def subRefinement (s : Subgroup) (x : Any) (b : Bool) : Except PyErr Bool :=
  match x with
  | .sub t => .ok (s.isRefinement t b)
  | _ => .error .attributeError

end Compare
end Verif

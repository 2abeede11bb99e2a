import Verif.Model.Bits
import Verif.Model.SDMap
/-! Model of `src/subgroups/algorithms/subgroup_sets/bsd.py`, `cbsd.py`, `cpbsd.py` and of `src/subgroups/data_structures/bitset_bsd.py`. -/
namespace Verif

/-- `Series.unique()`: the distinct values in order of appearance -/
def pyUnique (l : List Val) : List Val := l.reverse.dedup.reverse

namespace BitsetBSD

/-- the rows of `df[df[target[0]] == target[1]]` (`b = true`) or of `df[df[target[0]] != target[1]]` (`b = false`), in order,
`bitset_bsd.py:130-137`, `:191` -/
def rowsWhere (n : Nat) (mask : List Bool) (b : Bool) : List Nat := (List.range n).filter (fun i => mask[i]?.getD false == b)

/-- the pairs (column, value) of the columns other than the target that only have texts, `bitset_bsd.py:120-127`, `:182-189` -/
def pairs (df : Frame) (tname : Str) : List ((Str × List Val) × Val) :=
  ((otherCols df tname).filter (fun c => c.2.all Val.isStr)).flatMap (fun c => (pyUnique c.2).map (fun v => (c, v)))

/-- `(df_x[column] == value).tolist()`, `bitset_bsd.py:141-143` -/
def bitsOf (rows : List Nat) (col : List Val) (v : Val) : Bits :=
  rows.map (fun i => match col[i]? with | some x => x.eq v | none => false)

/-- `generate_set_of_frequent_selectors`, `bitset_bsd.py:150-205`: the selectors with `num_pos >= min_support`, by decreasing `num_pos`
(`sort(reverse=True)` is stable). Simplification: the dictionary keyed by selectors is a list, since the pairs are distinct. -/
def frequent (minSupport : Rat) (df : Frame) (tname : Str) (mask : List Bool) : List Selector :=
  (stableSort (fun a b : Selector × Nat => decide (b.2 ≤ a.2))
    (((pairs df tname).map (fun e => ((⟨e.1.1, .equal, e.2⟩ : Selector), (bitsOf (rowsWhere df.nrows mask true) e.1.2 e.2).ones))).filter
      (fun e => decide ((e.2 : Rat) ≥ minSupport)))).map (·.1)

/-- the key of a selector in a `BitsetDictionary`: `str(Pattern([key]))`, `bitset_bsd.py:27`, `:35` -/
def key (s : Selector) : Str := (Pattern.new [s]).str

/-- `bitset_pos` and `bitset_neg` after `build_bitset`, `bitset_bsd.py:96-148` -/
def build (df : Frame) (tname : Str) (mask : List Bool) (freq : List Selector) : Dict Bits × Dict Bits :=
  ((pairs df tname).filter (fun e => freq.any (fun t => (⟨e.1.1, .equal, e.2⟩ : Selector).eq t))).foldl
    (fun d e => (d.1.set (key ⟨e.1.1, .equal, e.2⟩) (bitsOf (rowsWhere df.nrows mask true) e.1.2 e.2),
      d.2.set (key ⟨e.1.1, .equal, e.2⟩) (bitsOf (rowsWhere df.nrows mask false) e.1.2 e.2))) ([], [])

/-- `BitsetDictionary.__getitem__`, `bitset_bsd.py:33-39` -/
def get (d : Dict Bits) (s : Selector) : Except PyErr Bits :=
  match d.lookup (key s) with
  | some b => .ok b
  | none => .error .keyError

end BitsetBSD

/-- an element of `_k_subgroups`: `(quality, subgroup, bits, optimistic_estimate, (tp, fp))`, `bsd.py:98-99`, `:173-174` -/
structure BSDEntry where
  quality : Rat
  pat : Pattern
  bits : Bits
  oe : Rat
  tp : Nat
  fp : Nat
  deriving DecidableEq

/-- the dummy element, `bsd.py:99` -/
def BSDEntry.dummy : BSDEntry := ⟨-99999, ⟨[]⟩, [], -99999, 0, 0⟩

/-- the three classes -/
inductive BSDVariant
  | bsd | cbsd | cpbsd
  deriving DecidableEq

/-- configuration, `bsd.py:62-112`. Simplification: `num_subgroups` and `max_depth` are natural numbers (a negative number behaves as 0);
the check of the names of measure and estimate is in `Model/Registry`, the types are in `Model/Ctors`. -/
structure BSDConfig where
  variant : BSDVariant
  minSupport : Rat
  measure : Params → Except PyErr Rat
  estimate : Params → Except PyErr Rat
  num : Nat
  maxDepth : Nat
  extra : Params
  extraOE : Params

/-- `BSD.__init__`, `bsd.py:92-112` -/
def BSDConfig.new (variant : BSDVariant) (minSupport : Rat) (measure estimate : Params → Except PyErr Rat) (num maxDepth : Nat)
    (extra extraOE : Params) : BSDConfig :=
  ⟨variant, minSupport, measure, estimate, num, maxDepth, deleteSubgroupParameters extra, deleteSubgroupParameters extraOE⟩

/-- a line of the result file (as a record), `bsd.py:447-468` -/
structure BSDLine where
  subgroup : Subgroup
  quality : Rat
  tp : Nat
  fp : Nat
  TP : Nat
  FP : Nat

/-- the mutable state of the object and its file. Ghosts: `calls`, the candidates handled so far; `skipped`, the number of candidates that
were not handled because they cover no row; `branches`, the number of branches pruned after their handling. -/
structure BSDState where
  k : List BSDEntry
  irrelevants : List (Pattern × Rat × Bits)
  visited : Nat
  selected : Nat
  unselected : Nat
  pruned : Nat
  file : List BSDLine
  calls : List BSDEntry
  skipped : Nat
  branches : Nat

/-- the state of a new object, `bsd.py:99-106` -/
def BSDState.fresh : BSDState := ⟨[.dummy], [], 0, 0, 0, 0, [], [], 0, 0⟩

namespace BSD

/-- `_logicalAnd`, `bsd.py:371-390` -/
def logicalAnd (a b : Bits) : Except PyErr Bits := if a.length ≠ b.length then .error .typeError else .ok (a.and b)

/-- `b[-n:]`: the whole array for `n = 0` -/
def lastBits (b : Bits) (n : Nat) : Bits := if n = 0 then b else b.drop (b.length - n)

/-- `b[i]` -/
def bitAt (b : Bits) (i : Nat) : Except PyErr Bool :=
  match b[i]? with
  | some x => .ok x
  | none => .error .indexError

/-- a `while` loop that looks for the first index satisfying a condition -/
def anyIdx (p : Nat → Except PyErr Bool) : List Nat → Except PyErr Bool
  | [] => .ok false
  | i :: is =>
    match p i with
    | .error e => .error e
    | .ok true => .ok true
    | .ok false => anyIdx p is

/-- `x[i] and not y[i]` -/
def inButNot (x y : Bits) (i : Nat) : Except PyErr Bool :=
  match bitAt x i with
  | .error e => .error e
  | .ok false => .ok false
  | .ok true => match bitAt y i with
    | .error e => .error e
    | .ok b => .ok (!b)

/-- `not x[i] and y[i]` -/
def notInBut (x y : Bits) (i : Nat) : Except PyErr Bool :=
  match bitAt x i with
  | .error e => .error e
  | .ok true => .ok false
  | .ok false => bitAt y i

/-- what `_checkRel` decides: the new subgroup is relevant, is not, or is and takes the place of an old one -/
inductive Rel
  | relevant | irrelevant | replaces (t : BSDEntry)
  deriving DecidableEq

/-- the loop of `BSD._checkRel`, `bsd.py:336-354` -/
def checkRelBSD (cpos cneg : Bits) : List BSDEntry → Except PyErr Rel
  | [] => .ok .relevant
  | t :: ts =>
    match logicalAnd cpos (t.bits.take cpos.length) with
    | .error e => .error e
    | .ok tpAnd =>
      if tpAnd.ones < cpos.ones then checkRelBSD cpos cneg ts
      else match logicalAnd cneg (lastBits t.bits cneg.length) with
        | .error e => .error e
        | .ok fpAnd => if fpAnd.ones = (lastBits t.bits cneg.length).ones then .ok .irrelevant else checkRelBSD cpos cneg ts

/-- the loop of `CBSD._checkRel`, `cbsd.py:127-150` (bits: all of the new subgroup, and as many as the old one has) and of
`CPBSD._checkRel`, `cpbsd.py:125-146` (bits: the positive ones) -/
def checkRelC (bits : Bits) (n : BSDEntry → Nat) (q : Rat) (sg : Pattern) : List BSDEntry → Except PyErr Rel
  | [] => .ok .relevant
  | t :: ts =>
    if t.quality = q then
      match anyIdx (notInBut t.bits bits) (List.range (n t)) with
      | .error e => .error e
      | .ok true => checkRelC bits n q sg ts
      | .ok false => if t.pat.sels.length > sg.sels.length then .ok .irrelevant else .ok (.replaces t)
    else checkRelC bits n q sg ts

/-- `_checkRel`: `bsd.py:312-354`, `cbsd.py:104-150`, `cpbsd.py:105-146` -/
def checkRel (v : BSDVariant) (k : List BSDEntry) (cpos cneg : Bits) (q : Rat) (sg : Pattern) : Except PyErr Rel :=
  match k with
  | [] => .error .indexError
  | e0 :: _ =>
    if e0.pat.sels = [] then .ok .relevant
    else match v with
      | .bsd => checkRelBSD cpos cneg k
      | .cbsd => checkRelC (cpos ++ cneg) (fun t => t.bits.length) q sg k
      | .cpbsd => checkRelC cpos (fun _ => cpos.length) q sg k

/-- the body of the loop of `_checkRelevancies`: is the old subgroup still relevant? `bsd.py:285-308`, `cbsd.py:86-98`,
`cpbsd.py:87-99` -/
def stillRelevant (v : BSDVariant) (cpos cneg : Bits) (q : Rat) (sg : Pattern) (t : BSDEntry) : Except PyErr Bool :=
  match v with
  | .bsd =>
    if t.pat.eq sg then .ok true
    else match logicalAnd cpos (t.bits.take cpos.length) with
      | .error e => .error e
      | .ok tpAnd =>
        if Bits.ones (t.bits.take cpos.length) > tpAnd.ones then .ok true
        else match logicalAnd cneg (lastBits t.bits cneg.length) with
          | .error e => .error e
          | .ok fpAnd => .ok (!(fpAnd.ones == cneg.ones))
  | .cbsd =>
    if t.pat.eq sg || t.quality ≠ q then .ok true
    else anyIdx (inButNot t.bits (cpos ++ cneg)) (List.range t.bits.length)
  | .cpbsd =>
    if t.pat.eq sg || t.quality ≠ q then .ok true
    else anyIdx (inButNot t.bits cpos) (List.range cpos.length)

/-- split a list into the elements that satisfy a condition and the others -/
def splitBy (p : BSDEntry → Except PyErr Bool) : List BSDEntry → Except PyErr (List BSDEntry × List BSDEntry)
  | [] => .ok ([], [])
  | t :: ts =>
    match p t with
    | .error e => .error e
    | .ok b =>
      match splitBy p ts with
      | .error e => .error e
      | .ok (a, d) => .ok (if b then (t :: a, d) else (a, t :: d))

/-- the first lines of `_checkRelevancies`: "eliminate the dummy subgroup", `bsd.py:280-281` -/
def dropDummy (k : List BSDEntry) : List BSDEntry :=
  match k with
  | [] => []
  | e0 :: rest => if e0.pat.sels = [] then rest else k

/-- the element as remembered in `_irrelevants` -/
def forget (t : BSDEntry) : Pattern × Rat × Bits := (t.pat, t.quality, t.bits)

/-- the comparison with the worst quality: `>` in BSD (`bsd.py:162`, `:166`), `>=` in CBSD and CPBSD -/
def above : BSDVariant → Rat → Rat → Bool
  | .bsd, x, m => decide (x > m)
  | _, x, m => decide (x ≥ m)

/-- what is remembered of a rejected candidate, `bsd.py:352`, `cbsd.py:142`, `cpbsd.py:140` -/
def rejected (v : BSDVariant) (sg : Pattern) (q : Rat) (cpos cneg : Bits) : Pattern × Rat × Bits :=
  match v with
  | .cpbsd => (sg, q, cpos)
  | _ => (sg, q, cpos ++ cneg)

/-- the conditional pattern plus a selector, `bsd.py:168-172` -/
def extend (cond : Pattern) (s : Selector) : Pattern := if cond.sels = [] then Pattern.new [s] else cond.copy.add s

/-- the new entry is added to the list, `bsd.py:175-185`: append, sort, check the relevance of the others, drop the worst one -/
def insert (v : BSDVariant) (num : Nat) (st : BSDState) (new : BSDEntry) (cpos cneg : Bits) : Except PyErr BSDState :=
  match splitBy (stillRelevant v cpos cneg new.quality new.pat)
      (dropDummy (stableSort (fun a b : BSDEntry => decide (a.quality ≤ b.quality)) (st.k ++ [new]))) with
  | .error e => .error e
  | .ok (aux, out) =>
    let st1 := { st with k := aux, irrelevants := st.irrelevants ++ out.map forget, unselected := st.unselected + out.length }
    if aux.length > num then
      match aux with
      | [] => .error .indexError
      | _ :: aux' => .ok { st1 with k := aux', unselected := st1.unselected + 1 }
    else .ok st1

/-- `_handle_individual_result`, `bsd.py:144-193`, `cbsd.py:18-65`, `cpbsd.py:18-66`: the new state and whether the selector was added to
`newSelRel` -/
def handle (v : BSDVariant) (num : Nat) (st : BSDState) (c : BSDEntry) (cpos cneg : Bits) : Except PyErr (BSDState × Bool) :=
  let st := { st with visited := st.visited + 1, calls := st.calls ++ [c] }
  match st.k with
  | [] => .error .indexError
  | e0 :: _ =>
    if above v c.oe e0.quality || decide (st.k.length < num) then
      if above v c.quality e0.quality || decide (st.k.length < num) then
        match checkRel v st.k cpos cneg c.quality c.pat with
        | .error e => .error e
        | .ok .irrelevant =>
          .ok ({ st with unselected := st.unselected + 1, irrelevants := st.irrelevants ++ [rejected v c.pat c.quality cpos cneg] }, true)
        | .ok .relevant =>
          match insert v num st c cpos cneg with
          | .error e => .error e
          | .ok st' => .ok (st', true)
        | .ok (.replaces t) =>
          match insert v num { st with k := st.k.erase t, irrelevants := st.irrelevants ++ [forget t], unselected := st.unselected + 1 } c cpos cneg with
          | .error e => .error e
          | .ok st' => .ok (st', true)
      else .ok ({ st with unselected := st.unselected + 1 }, true)
    else .ok ({ st with unselected := st.unselected + 1, pruned := st.pruned + 1 }, false)

end BSD

namespace BSDConfig

/-- the bit arrays of the candidate, `bsd.py:216-223` -/
def candBits (B : Dict Bits × Dict Bits) (cond : Pattern) (cpos cneg : Bits) (s : Selector) : Except PyErr (Bits × Bits) :=
  match BitsetBSD.get B.1 s, BitsetBSD.get B.2 s with
  | .ok p, .ok n =>
    if cond.sels = [] then .ok (p, n)
    else match BSD.logicalAnd cpos p, BSD.logicalAnd cneg n with
      | .ok p', .ok n' => .ok (p', n')
      | .error e, _ => .error e
      | _, .error e => .error e
  | .error e, _ => .error e
  | _, .error e => .error e

/-- the first loop of `_BSD`, `bsd.py:213-239`; the result is the state and `newSelRel` -/
def level (cfg : BSDConfig) (B : Dict Bits × Dict Bits) (TP FP : Nat) (cond : Pattern) (cpos cneg : Bits) :
    List Selector → BSDState → Except PyErr (BSDState × List (Rat × Selector))
  | [], st => .ok (st, [])
  | s :: rest, st =>
    match candBits B cond cpos cneg s with
    | .error e => .error e
    | .ok (p, n) =>
      if p.ones + n.ones = 0 then level cfg B TP FP cond cpos cneg rest { st with unselected := st.unselected + 1, skipped := st.skipped + 1 }
      else
        match cfg.estimate (paramsFor p.ones n.ones TP FP cfg.extraOE) with
        | .error e => .error e
        | .ok oe =>
          match cfg.measure (paramsFor p.ones n.ones TP FP cfg.extra) with
          | .error e => .error e
          | .ok q =>
            match BSD.handle cfg.variant cfg.num st ⟨q, BSD.extend cond s, p ++ n, oe, p.ones, n.ones⟩ p n with
            | .error e => .error e
            | .ok (st1, kept) =>
              match level cfg B TP FP cond cpos cneg rest st1 with
              | .error e => .error e
              | .ok (st2, new) => .ok (st2, if kept then (oe, s) :: new else new)

/-- `<` of the tuples `(oe, selector)` -/
def tupleLt (a b : Rat × Selector) : Bool := if a.1 = b.1 then (if a.2.eq b.2 then false else a.2.lt b.2) else decide (a.1 < b.1)

/-- `list.remove` -/
def removeSel (s : Selector) : List Selector → Except PyErr (List Selector)
  | [] => .error .valueError
  | t :: ts =>
    if t.eq s then .ok ts
    else match removeSel s ts with
      | .error e => .error e
      | .ok r => .ok (t :: r)

/-- the second loop of `_BSD`, `bsd.py:247-264`, given the recursive call -/
def branch (B : Dict Bits × Dict Bits) (call : Pattern → List Selector → Bits → Bits → BSDState → Except PyErr BSDState)
    (cond : Pattern) (cpos cneg : Bits) : List (Rat × Selector) → List Selector → BSDState → Except PyErr BSDState
  | [], _, st => .ok st
  | (o, s) :: rest, aux, st =>
    match st.k with
    | [] => .error .indexError
    | e0 :: _ =>
      if o > e0.quality then
        match removeSel s aux with
        | .error e => .error e
        | .ok aux' =>
          match BitsetBSD.get B.1 s, BitsetBSD.get B.2 s with
          | .ok p, .ok n =>
            match BSD.logicalAnd cpos p, BSD.logicalAnd cneg n with
            | .ok p', .ok n' =>
              match call (BSD.extend cond s) aux' p' n' st with
              | .error e => .error e
              | .ok st1 => branch B call cond cpos cneg rest aux' st1
            | .error e, _ => .error e
            | _, .error e => .error e
          | .error e, _ => .error e
          | _, .error e => .error e
      else branch B call cond cpos cneg rest aux { st with pruned := st.pruned + 1, unselected := st.unselected + 1, branches := st.branches + 1 }

/-- `_BSD`, `bsd.py:195-264`; the first argument is `max_depth - depth` -/
def search (cfg : BSDConfig) (B : Dict Bits × Dict Bits) (TP FP : Nat) :
    Nat → Pattern → List Selector → Bits → Bits → BSDState → Except PyErr BSDState
  | 0, cond, selRel, cpos, cneg, st =>
    match cfg.level B TP FP cond cpos cneg selRel st with
    | .error e => .error e
    | .ok (st1, _) => .ok st1
  | d + 1, cond, selRel, cpos, cneg, st =>
    match cfg.level B TP FP cond cpos cneg selRel st with
    | .error e => .error e
    | .ok (st1, new) =>
      let new := stableSort (fun a b => !tupleLt a b) new
      branch B (search cfg B TP FP d) cond cpos cneg new (new.map (·.2)) st1

/-- `_to_file`, `bsd.py:447-468` -/
def lines (target : Str × Str) (TP FP : Nat) (k : List BSDEntry) : List BSDLine :=
  (k.filter (fun e => decide (e.quality ≠ -99999))).map (fun e => ⟨⟨e.pat, ⟨target.1, .equal, .str target.2⟩⟩, e.quality, e.tp, e.fp, TP, FP⟩)

/-- `fit`, `bsd.py:392-445`, when a file is written -/
def fit (cfg : BSDConfig) (st : BSDState) (df : Frame) (target : Str × Str) : Except PyErr BSDState :=
  if !df.nominal then .error .datasetAttributeType
  else match targetMask df target with
    | .error e => .error e
    | .ok mask =>
      let TP := mask.count true
      let FP := df.nrows - TP
      let freq := BitsetBSD.frequent cfg.minSupport df target.1 mask
      let B := BitsetBSD.build df target.1 mask freq
      match cfg.search B TP FP cfg.maxDepth ⟨[]⟩ freq (List.replicate (BitsetBSD.rowsWhere df.nrows mask true).length true)
          (List.replicate (BitsetBSD.rowsWhere df.nrows mask false).length true) st with
      | .error e => .error e
      | .ok st1 =>
        match st1.k with
        | [] => .error .indexError
        | e0 :: _ => .ok { st1 with
            selected := if e0.quality = -99999 then st1.k.length - 1 else st1.k.length
            file := lines target TP FP st1.k }

end BSDConfig
end Verif

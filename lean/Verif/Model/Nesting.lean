import Verif.Model.SDMapStar
import Verif.Model.VLSD
import Verif.Model.BSD
import Verif.Model.IDSD
/-! Nested calls. Python gives up with a `RecursionError` when too many calls are open (`sys.getrecursionlimit()`). The functions
`_generate_all_combinations`, `_fpgrowth` (SDMap, SDMapStar), `_search` (VLSD), `_BSD` and `_grow_tree` (IDSD) call themselves; the
rest of the library uses loops. Here these functions, and the `fit` methods that start them, get a number of calls that may still be
opened: a call with 0 left fails. Simplification: only open calls of these functions count; the fixed number of frames below
`fit` (the program of the user) and above (the calls of the measures, of pandas, ...) would be added to the budget. A failing run
returns no state (the file of a failed run is described in `Model/ResultFiles`). -/
namespace Verif.Nesting

/-- how a run with a limited stack fails: `RecursionError`, or any other exception -/
inductive Fail
  | stack
  | py (e : PyErr)
  deriving DecidableEq

/-- a computation without recursive calls -/
def lift {α : Type} : Except PyErr α → Except Fail α
  | .ok a => .ok a
  | .error e => .error (.py e)

/-- `_generate_all_combinations`, `sdmap.py:24-33`, `sdmapstar.py:23-32`, with `b` calls left -/
def allCombinations {α : Type} : Nat → List α → Except Fail (List (List α))
  | 0, _ => .error .stack
  | _ + 1, [] => .ok [[]]
  | b + 1, a :: l =>
    match allCombinations b l with
    | .error e => .error e
    | .ok x => .ok (x ++ x.map (a :: ·))

section
variable {σ κ β : Type} [DecidableEq σ] [DecidableEq κ]

/-- `_fpgrowth`, `sdmap.py:185-241` (and `sdmapstar.py:221-324` without top-k), with `b` calls left. `f` is
`_handle_individual_result`, `order` the selectors that the loop visits. -/
def fpgrowth (order : FPTree σ → List σ) (key : σ → κ) (th : Thresholds) (f : β → Emission σ → Except PyErr β) :
    Nat → FPTree σ → List σ → β → Except Fail β
  | 0, _, _, _ => .error .stack
  | b + 1, t, alpha, s =>
    if t.singlePath then
      match allCombinations b t.sorted with
      | .error e => .error e
      | .ok x => lift ((x.erase []).foldlM (fun s beta => f s (beta ++ alpha, t.leastFrequentCnt beta)) s)
    else (order t).foldlM (fun s a =>
      match f s (a :: alpha, (t.header.lookup a).getD (0, 0)) with
      | .error e => .error (.py e)
      | .ok s' =>
        if !(t.condTree key th a).isEmpty then fpgrowth order key th f b (t.condTree key th a) (a :: alpha) s' else .ok s') s

end

/-- `SDMap.fit`, `sdmap.py:243-274`, with `b` calls left (and `SDMapStar.fit` without top-k, `order` is then the header table) -/
def sdmapFit (order : FPTree Selector → List Selector) (cfg : SDMapConfig) (b : Nat) (st : SDMapState) (df : Frame) (target : Str × Str) :
    Except Fail SDMapState :=
  if !df.nominal then .error (.py .datasetAttributeType)
  else match targetMask df target with
    | .error e => .error (.py e)
    | .ok mask =>
      let t := FPTree.buildTree Selector.dictKey (frequentSelectors cfg.th df target.1 mask) (keyRows df target.1 mask)
      let TP := mask.count true
      if t.isEmpty then .ok st
      else fpgrowth order Selector.dictKey cfg.th (fun s e => cfg.handle target TP (df.nrows - TP) s (Pattern.new e.1, e.2)) b t []
        { st with file := [] }

/-- `_fpgrowth` with `num_subgroups > 0`, `sdmapstar.py:221-324`, with `b` calls left -/
def fpgrowthStar (cfg : SDMapStarConfig) (target : Str × Str) (TP FP : Nat) :
    Nat → StarState → FPTree Selector → List Selector → Except Fail StarState
  | 0, _, _, _ => .error .stack
  | b + 1, st, t, alpha =>
    if t.singlePath then
      match allCombinations b t.sorted with
      | .error e => .error e
      | .ok x => lift ((x.erase []).foldlM (fun st beta => do
          let r ← cfg.visit target TP FP st (beta ++ alpha) (t.leastFrequentCnt beta)
          return r.1) st)
    else match cfg.oeOrder TP FP t with
      | .error e => .error (.py e)
      | .ok order => order.foldlM (fun st a =>
        match cfg.visit target TP FP st (a :: alpha) ((t.header.lookup a).getD (0, 0)) with
        | .error e => .error (.py e)
        | .ok (st1, false) => .ok st1
        | .ok (st1, true) =>
          match cfg.condTreeStar TP FP (st1.ks.headD 0) t a with
          | .error e => .error (.py e)
          | .ok (c, n) =>
            if !c.isEmpty then fpgrowthStar cfg target TP FP b { st1 with condPruned := st1.condPruned + n } c (a :: alpha)
            else .ok { st1 with condPruned := st1.condPruned + n }) st

/-- `SDMapStar.fit`, `sdmapstar.py:352-382`, with `b` calls left -/
def starFit (cfg : SDMapStarConfig) (b : Nat) (st : StarState) (df : Frame) (target : Str × Str) : Except Fail StarState :=
  if cfg.num = 0 then
    match sdmapFit (fun t => t.header.map (·.1)) cfg.toSDMapConfig b st.base df target with
    | .error e => .error e
    | .ok s => .ok { st with base := s }
  else if !df.nominal then .error (.py .datasetAttributeType)
  else match targetMask df target with
    | .error e => .error (.py e)
    | .ok mask =>
      let t := FPTree.buildTree Selector.dictKey (frequentSelectors cfg.th df target.1 mask) (keyRows df target.1 mask)
      let TP := mask.count true
      if t.isEmpty then .ok st
      else fpgrowthStar cfg target TP (df.nrows - TP) b { st with base := { st.base with file := [] } } t []

section
variable {Seq : Type}

/-- the loop of `_search`, `vlsd.py:293-328`, given the recursive call -/
def searchLoop (I : VLImpl Seq) (cfg : VLSDConfig) (target : Str × Str) (TP FP : Nat) (M : VMatrix Seq)
    (call : List (VList Selector Seq) → VLState Seq → Except Fail (VLState Seq)) :
    List (VList Selector Seq) → VLState Seq → Except Fail (VLState Seq)
  | [], st => .ok st
  | x :: rest, st =>
    match VLSDConfig.joinRight I cfg target TP FP M x rest st with
    | .error e => .error (.py e)
    | .ok (st1, V) =>
      match (if V = [] then .ok st1 else call (cfg.sortOther.sort V) st1) with
      | .error e => .error e
      | .ok st2 => searchLoop I cfg target TP FP M call rest st2

/-- `_search`, `vlsd.py:283-328`, with `b` calls left -/
def search (I : VLImpl Seq) (cfg : VLSDConfig) (target : Str × Str) (TP FP : Nat) (M : VMatrix Seq) :
    Nat → List (VList Selector Seq) → VLState Seq → Except Fail (VLState Seq)
  | 0, _, _ => .error .stack
  | b + 1, P, st => searchLoop I cfg target TP FP M (search I cfg target TP FP M b) P st

/-- the last loop of `VLSD.fit`, `vlsd.py:377-392`, with `b` calls left -/
def level2 (I : VLImpl Seq) (cfg : VLSDConfig) (target : Str × Str) (TP FP : Nat) (M : VMatrix Seq) (b : Nat) :
    List (VList Selector Seq) → VLState Seq → Except Fail (VLState Seq)
  | [], st => .ok st
  | x :: rest, st =>
    match x.sels.getLast? with
    | none => .error (.py .indexError)
    | some a =>
      match M.lookup a with
      | none => level2 I cfg target TP FP M b rest st
      | some row =>
        match (cfg.sortOther.sort (row.map (·.2))).foldlM (cfg.handle target TP FP) st with
        | .error e => .error (.py e)
        | .ok st1 =>
          match search I cfg target TP FP M b (cfg.sortOther.sort (row.map (·.2))) st1 with
          | .error e => .error e
          | .ok st2 => level2 I cfg target TP FP M b rest st2

/-- `VLSD.fit`, `vlsd.py:330-395`, with `b` calls left -/
def vlsdFit (I : VLImpl Seq) (cfg : VLSDConfig) (b : Nat) (st : VLState Seq) (df : Frame) (target : Str × Str) :
    Except Fail (VLState Seq) :=
  if !df.nominal then .error (.py .datasetAttributeType)
  else match targetMask df target with
    | .error e => .error (.py e)
    | .ok mask =>
      let TP := mask.count true
      let FP := df.nrows - TP
      match cfg.s1 I df target.1 mask TP FP with
      | .error e => .error (.py e)
      | .ok S1 =>
        match S1.foldlM (cfg.handle target TP FP) { st with file := [] } with
        | .error e => .error (.py e)
        | .ok st1 =>
          match cfg.matrix I TP FP S1 with
          | .error e => .error (.py e)
          | .ok M => level2 I cfg target TP FP M b S1 st1

end

/-- the second loop of `_BSD`, `bsd.py:247-264`, given the recursive call -/
def branch (B : Dict Bits × Dict Bits) (call : Pattern → List Selector → Bits → Bits → BSDState → Except Fail BSDState)
    (cond : Pattern) (cpos cneg : Bits) : List (Rat × Selector) → List Selector → BSDState → Except Fail BSDState
  | [], _, st => .ok st
  | (o, s) :: rest, aux, st =>
    match st.k with
    | [] => .error (.py .indexError)
    | e0 :: _ =>
      if o > e0.quality then
        match BSDConfig.removeSel s aux with
        | .error e => .error (.py e)
        | .ok aux' =>
          match BitsetBSD.get B.1 s, BitsetBSD.get B.2 s with
          | .ok p, .ok n =>
            match BSD.logicalAnd cpos p, BSD.logicalAnd cneg n with
            | .ok p', .ok n' =>
              match call (BSD.extend cond s) aux' p' n' st with
              | .error e => .error e
              | .ok st1 => branch B call cond cpos cneg rest aux' st1
            | .error e, _ => .error (.py e)
            | _, .error e => .error (.py e)
          | .error e, _ => .error (.py e)
          | _, .error e => .error (.py e)
      else branch B call cond cpos cneg rest aux { st with pruned := st.pruned + 1, unselected := st.unselected + 1, branches := st.branches + 1 }

/-- `_BSD`, `bsd.py:195-264`, with `b` calls left; `d` is `max_depth - depth` -/
def bsdSearch (cfg : BSDConfig) (B : Dict Bits × Dict Bits) (TP FP : Nat) :
    Nat → Nat → Pattern → List Selector → Bits → Bits → BSDState → Except Fail BSDState
  | 0, _, _, _, _, _, _ => .error .stack
  | b + 1, d, cond, selRel, cpos, cneg, st =>
    match cfg.level B TP FP cond cpos cneg selRel st with
    | .error e => .error (.py e)
    | .ok (st1, new) =>
      if d = 0 then .ok st1
      else branch B (bsdSearch cfg B TP FP b (d - 1)) cond cpos cneg (stableSort (fun a b => !BSDConfig.tupleLt a b) new)
        ((stableSort (fun a b => !BSDConfig.tupleLt a b) new).map (·.2)) st1

/-- `fit` of BSD, CBSD and CPBSD, `bsd.py:392-445`, with `b` calls left -/
def bsdFit (cfg : BSDConfig) (b : Nat) (st : BSDState) (df : Frame) (target : Str × Str) : Except Fail BSDState :=
  if !df.nominal then .error (.py .datasetAttributeType)
  else match targetMask df target with
    | .error e => .error (.py e)
    | .ok mask =>
      let TP := mask.count true
      let FP := df.nrows - TP
      let freq := BitsetBSD.frequent cfg.minSupport df target.1 mask
      let B := BitsetBSD.build df target.1 mask freq
      match bsdSearch cfg B TP FP b cfg.maxDepth ⟨[]⟩ freq (List.replicate (BitsetBSD.rowsWhere df.nrows mask true).length true)
          (List.replicate (BitsetBSD.rowsWhere df.nrows mask false).length true) st with
      | .error e => .error e
      | .ok st1 =>
        match st1.k with
        | [] => .error (.py .indexError)
        | e0 :: _ => .ok { st1 with
            selected := if e0.quality = -99999 then st1.k.length - 1 else st1.k.length
            file := BSDConfig.lines target TP FP st1.k }

/-- the loop of `_grow_tree`, `idsd.py:365-373`, given the recursive call -/
def growLoop (call : List Selector → Pattern → Bits → IDSDState → Except Fail IDSDState) :
    List Selector → Pattern → Bits → IDSDState → Except Fail IDSDState
  | [], _, _, st => .ok st
  | s :: rest, p, app, st =>
    match st.apps.lookup s with
    | none => .error (.py .keyError)
    | some b =>
      match call rest (p.copy.add s) (app.alignAnd b) st with
      | .error e => .error e
      | .ok st1 => growLoop call rest p app st1

/-- `_grow_tree`, `idsd.py:323-373`, with `b` calls left -/
def growTree (cfg : IDSDConfig) (complexity : Nat) (TP FP : Nat) (mask : Bits) :
    Nat → List Selector → Pattern → Bits → IDSDState → Except Fail IDSDState
  | 0, _, _, _, _ => .error .stack
  | b + 1, sels, p, app, st =>
    match IDSD.visit cfg complexity TP FP mask p app st with
    | .error e => .error (.py e)
    | .ok (st, false) => .ok st
    | .ok (st, true) => growLoop (growTree cfg complexity TP FP mask b) sels p app st

/-- the iterations of `IDSD.fit`, `idsd.py:411-412`, with `b` calls left -/
def deepen (cfg : IDSDConfig) (TP FP : Nat) (mask : Bits) (sels : List Selector) (n b : Nat) : List Nat → IDSDState → Except Fail IDSDState
  | [], st => .ok st
  | c :: cs, st =>
    match growTree cfg c TP FP mask b sels (Pattern.new []) (List.replicate n true) st with
    | .error e => .error e
    | .ok st => deepen cfg TP FP mask sels n b cs st

/-- `IDSD.fit`, `idsd.py:375-414`, with `b` calls left -/
def idsdFit (cfg : IDSDConfig) (b : Nat) (st : IDSDState) (df : Frame) (target : Str × Str) : Except Fail IDSDState :=
  if !df.nominal then .error (.py .datasetAttributeType)
  else match targetMask df target with
    | .error _ => .error (.py .valueError)
    | .ok mask =>
      if !mask.any id then .error (.py .valueError)
      else
        let TP := mask.count true
        let df' := IDSD.reduceCategories cfg.ties cfg.cats df target.1
        let pairs := IDSD.selectorPairs df' target.1
        deepen cfg TP (df.nrows - TP) mask (pairs.map (·.1)) df.nrows b ((List.range (IDSD.maxComplexity cfg df')).map (· + 1))
          { st with top := [], calls := [], apps := pairs.foldl (fun d e => IDSD.setApp d e.1 e.2) st.apps }

end Verif.Nesting

import Verif.Model.SDMap
import Verif.Model.VerticalList
/-! Model of `src/subgroups/algorithms/subgroup_sets/vlsd.py`. -/
namespace Verif

/-- one of the two classes of vertical lists: constructor and `join` (with the measure, the dictionary and `return_None_if_n_is_0`) -/
structure VLImpl (Seq : Type) where
  new : List Selector → List Nat → List Nat → Nat → Rat → Except PyErr (VList Selector Seq)
  join : (Params → Except PyErr Rat) → Params → Bool → VList Selector Seq → VList Selector Seq →
    Except PyErr (Option (VList Selector Seq))

/-- `vertical_lists_implementation = "sets"`, `vlsd.py:267-268` -/
def VLImpl.sets : VLImpl (List Nat) := ⟨VListSet.new, VListSet.join⟩
/-- `vertical_lists_implementation = "bitsets"`, `vlsd.py:265-266` -/
def VLImpl.bitsets : VLImpl Bits := ⟨VListBits.new, VListBits.join⟩

/-- `VLSD.SORT_CRITERION`, `vlsd.py:78-81` -/
inductive SortCriterion
  | ascending | descending | noOrder
  deriving DecidableEq

/-- the sort by quality value (of the optimistic estimate), `vlsd.py:275-278`, `:324-327`, `:384-387`; `sort(reverse=True)` is stable -/
def SortCriterion.sort {Seq : Type} (c : SortCriterion) (l : List (VList Selector Seq)) : List (VList Selector Seq) :=
  match c with
  | .ascending => stableSort (fun a b => decide (a.quality ≤ b.quality)) l
  | .descending => stableSort (fun a b => decide (b.quality ≤ a.quality)) l
  | .noOrder => l

/-- configuration of a `VLSD` object, `vlsd.py:90-135`. Simplification: parameters have the documented types (`Model/Ctors` for others); the check of the names of
measure and estimate is in `Model/Registry`. -/
structure VLSDConfig where
  measure : Params → Except PyErr Rat
  minQuality : Rat
  estimate : Params → Except PyErr Rat
  minEstimate : Rat
  extra : Params
  extraOE : Params
  sortS1 : SortCriterion
  sortOther : SortCriterion

/-- `VLSD.__init__`, `vlsd.py:118-129` -/
def VLSDConfig.new (measure : Params → Except PyErr Rat) (minQuality : Rat) (estimate : Params → Except PyErr Rat) (minEstimate : Rat)
    (extra extraOE : Params) (sortS1 sortOther : SortCriterion) : VLSDConfig :=
  ⟨measure, minQuality, estimate, minEstimate, deleteSubgroupParameters extra, deleteSubgroupParameters extraOE, sortS1, sortOther⟩

/-- a line of the result file (as a record), `vlsd.py:206-215` -/
structure VLine (Seq : Type) where
  subgroup : Subgroup
  tpSeq : Seq
  fpSeq : Seq
  quality : Rat
  estimate : Rat
  tp : Nat
  fp : Nat
  TP : Nat
  FP : Nat

/-- the mutable state of a `VLSD` object and its file. `calls` is a ghost: the vertical lists handled so far. -/
structure VLState (Seq : Type) where
  selected : Nat
  unselected : Nat
  file : List (VLine Seq)
  calls : List (VList Selector Seq)

/-- the matrix M: a dictionary of dictionaries -/
abbrev VMatrix (Seq : Type) := List (Selector × List (Selector × VList Selector Seq))

/-- `_query_triangular_matrix`, `vlsd.py:47-61` -/
def VMatrix.query {Seq : Type} (M : VMatrix Seq) (a b : Selector) : Option (VList Selector Seq) :=
  match (M.lookup a).bind (fun r => r.lookup b) with
  | some v => some v
  | none => (M.lookup b).bind (fun r => r.lookup a)

namespace VLSDConfig
variable {Seq : Type}

/-- `_handle_individual_result`, `vlsd.py:184-220`, when a file is written -/
def handle (cfg : VLSDConfig) (target : Str × Str) (TP FP : Nat) (st : VLState Seq) (v : VList Selector Seq) : Except PyErr (VLState Seq) :=
  match cfg.measure (paramsFor v.tp v.fp TP FP cfg.extra) with
  | .error e => .error e
  | .ok q =>
    if q ≥ cfg.minQuality then
      .ok { st with
        selected := st.selected + 1
        file := st.file ++ [⟨⟨Pattern.new v.sels, ⟨target.1, .equal, .str target.2⟩⟩, v.tpSeq, v.fpSeq, q, v.quality, v.tp, v.fp, TP, FP⟩]
        calls := st.calls ++ [v] }
    else .ok { st with unselected := st.unselected + 1, calls := st.calls ++ [v] }

/-- the dictionary given to `join`, `vlsd.py:313-314`, `:365-366` -/
def joinParams (cfg : VLSDConfig) (TP FP : Nat) : Params := Dict.update [(kTP, (TP : Rat)), (kFP, (FP : Rat))] cfg.extraOE

/-- `s_x.join(s_y, optimistic_estimate, dict, return_None_if_n_is_0=True)`, kept only if its estimate reaches the threshold,
`vlsd.py:315-316`, `:367-369` -/
def goodJoin (I : VLImpl Seq) (cfg : VLSDConfig) (TP FP : Nat) (x y : VList Selector Seq) : Except PyErr (Option (VList Selector Seq)) :=
  match I.join cfg.estimate (cfg.joinParams TP FP) true x y with
  | .error e => .error e
  | .ok none => .ok none
  | .ok (some v) => if v.quality ≥ cfg.minEstimate then .ok (some v) else .ok none

/-- the inner loop of `_search`, `vlsd.py:302-320`: join `x` with each list to its right, handle and collect the good ones -/
def joinRight (I : VLImpl Seq) (cfg : VLSDConfig) (target : Str × Str) (TP FP : Nat) (M : VMatrix Seq) (x : VList Selector Seq) :
    List (VList Selector Seq) → VLState Seq → Except PyErr (VLState Seq × List (VList Selector Seq))
  | [], st => .ok (st, [])
  | y :: ys, st =>
    match x.sels.getLast?, y.sels.getLast? with
    | some a, some b =>
      match M.query a b with
      | none => joinRight I cfg target TP FP M x ys st
      | some m =>
        if m.quality ≥ cfg.minEstimate then
          match cfg.goodJoin I TP FP x y with
          | .error e => .error e
          | .ok none => joinRight I cfg target TP FP M x ys st
          | .ok (some v) =>
            match cfg.handle target TP FP st v with
            | .error e => .error e
            | .ok st1 =>
              match joinRight I cfg target TP FP M x ys st1 with
              | .error e => .error e
              | .ok (st2, V) => .ok (st2, v :: V)
        else joinRight I cfg target TP FP M x ys st
    | _, _ => .error .indexError

theorem joinRight_length {I : VLImpl Seq} {cfg : VLSDConfig} {target : Str × Str} {TP FP : Nat} {M : VMatrix Seq} {x : VList Selector Seq}
    {ys : List (VList Selector Seq)} {st st' : VLState Seq} {V : List (VList Selector Seq)}
    (h : joinRight I cfg target TP FP M x ys st = .ok (st', V)) : V.length ≤ ys.length := by
  induction ys generalizing st V st' with
  | nil => simp only [joinRight, Except.ok.injEq, Prod.mk.injEq] at h; rw [← h.2]
  | cons y ys ih =>
    unfold joinRight at h
    repeat' split at h
    all_goals first
      | cases h
      | (have := ih h; simp only [List.length_cons]; omega)
      | skip
    rename_i h1
    have := ih h1
    simp only [List.length_cons]; omega

theorem sort_length (c : SortCriterion) (l : List (VList Selector Seq)) : (c.sort l).length = l.length := by
  have h : ∀ le : VList Selector Seq → VList Selector Seq → Bool, (stableSort le l).length = l.length := by
    intro le
    have hi : ∀ (a : VList Selector Seq) l, (sortedInsert le a l).length = l.length + 1 := by
      intro a l
      induction l with
      | nil => rfl
      | cons b l ih => unfold sortedInsert; split <;> simp [ih]
    induction l with
    | nil => rfl
    | cons a l ih => simp only [stableSort, List.foldr_cons, hi, List.length_cons] at ih ⊢; omega
  cases c <;> simp only [SortCriterion.sort, h]

/-- `_search`, `vlsd.py:283-328`. The last element of P is "never processed" by the code: in the model it is, with nothing to its right,
to no effect. -/
def search (I : VLImpl Seq) (cfg : VLSDConfig) (target : Str × Str) (TP FP : Nat) (M : VMatrix Seq) :
    List (VList Selector Seq) → VLState Seq → Except PyErr (VLState Seq)
  | [], st => .ok st
  | x :: rest, st =>
    match _h : joinRight I cfg target TP FP M x rest st with
    | .error e => .error e
    | .ok (st1, V) =>
      match (if V = [] then .ok st1 else search I cfg target TP FP M (cfg.sortOther.sort V) st1) with
      | .error e => .error e
      | .ok st2 => search I cfg target TP FP M rest st2
termination_by P => P.length
decreasing_by
  · rw [sort_length, List.length_cons]; have := joinRight_length _h; omega
  · simp

/-- rows of a column with a value, with and without the target: `groupby([column, mask]).indices`, `vlsd.py:241-257` -/
def registers (n : Nat) (col : List Val) (mask : List Bool) (v : Val) (b : Bool) : List Nat :=
  (List.range n).filter (fun i => decide (col[i]? = some v) && (mask[i]?.getD false == b))

/-- one value of a column, `vlsd.py:247-273` -/
def single (I : VLImpl Seq) (cfg : VLSDConfig) (n TP FP : Nat) (mask : List Bool) (c : Str × List Val) (v : Val) :
    Except PyErr (Option (VList Selector Seq)) :=
  let t := registers n c.2 mask v true
  let f := registers n c.2 mask v false
  match cfg.estimate (paramsFor t.length f.length TP FP cfg.extraOE) with
  | .error e => .error e
  | .ok o =>
    if o ≥ cfg.minEstimate then
      match I.new [⟨c.1, .equal, v⟩] t f (TP + FP) o with
      | .error e => .error e
      | .ok w => .ok (some w)
    else .ok none

/-- run `f` on each element and keep the results that are not `None` -/
def collect {α β : Type} (f : α → Except PyErr (Option β)) : List α → Except PyErr (List β)
  | [] => .ok []
  | a :: l =>
    match f a with
    | .error e => .error e
    | .ok o => match collect f l with
      | .error e => .error e
      | .ok r => .ok (o.toList ++ r)

/-- `_generate_subgroups_s1`, `vlsd.py:223-281`. The values of a column are taken in increasing order, as pandas does; no theorem depends
on this order. -/
def s1 (I : VLImpl Seq) (cfg : VLSDConfig) (df : Frame) (tname : Str) (mask : List Bool) (TP FP : Nat) :
    Except PyErr (List (VList Selector Seq)) :=
  match collect (fun cv => cfg.single I df.nrows TP FP mask cv.1 cv.2) ((otherCols df tname).flatMap (fun c => (groupKeys c.2).map (fun v => (c, v)))) with
  | .error e => .error e
  | .ok l => .ok (cfg.sortS1.sort l)

/-- the entry of the matrix for a pair -/
def pair (I : VLImpl Seq) (cfg : VLSDConfig) (TP FP : Nat) (x y : VList Selector Seq) : Except PyErr (Option (Selector × VList Selector Seq)) :=
  match cfg.goodJoin I TP FP x y with
  | .error e => .error e
  | .ok none => .ok none
  | .ok (some v) => match y.sels.getLast? with
    | some b => .ok (some (b, v))
    | none => .error .indexError

/-- construction of M, `vlsd.py:353-375`: a row per element of S1 with some entry -/
def matrix (I : VLImpl Seq) (cfg : VLSDConfig) (TP FP : Nat) : List (VList Selector Seq) → Except PyErr (VMatrix Seq)
  | [] => .ok []
  | x :: rest =>
    match collect (cfg.pair I TP FP x) rest with
    | .error e => .error e
    | .ok row =>
      match matrix I cfg TP FP rest with
      | .error e => .error e
      | .ok M =>
        if row = [] then .ok M
        else match x.sels.getLast? with
          | some a => .ok ((a, row) :: M)
          | none => .error .indexError

/-- the last loop of `fit`, `vlsd.py:377-392`. The last element of S1 has no row, so including it has no effect. -/
def level2 (I : VLImpl Seq) (cfg : VLSDConfig) (target : Str × Str) (TP FP : Nat) (M : VMatrix Seq) :
    List (VList Selector Seq) → VLState Seq → Except PyErr (VLState Seq)
  | [], st => .ok st
  | x :: rest, st =>
    match x.sels.getLast? with
    | none => .error .indexError
    | some a =>
      match M.lookup a with
      | none => level2 I cfg target TP FP M rest st
      | some row =>
        let P := cfg.sortOther.sort (row.map (·.2))
        match P.foldlM (cfg.handle target TP FP) st with
        | .error e => .error e
        | .ok st1 =>
          match search I cfg target TP FP M P st1 with
          | .error e => .error e
          | .ok st2 => level2 I cfg target TP FP M rest st2

/-- `VLSD.fit`, `vlsd.py:330-395`: the file is emptied (`open(..., "w")`) first. -/
def fit (I : VLImpl Seq) (cfg : VLSDConfig) (st : VLState Seq) (df : Frame) (target : Str × Str) : Except PyErr (VLState Seq) :=
  if !df.nominal then .error .datasetAttributeType
  else match targetMask df target with
    | .error e => .error e
    | .ok mask =>
      let TP := mask.count true
      let FP := df.nrows - TP
      match cfg.s1 I df target.1 mask TP FP with
      | .error e => .error e
      | .ok S1 =>
        match S1.foldlM (cfg.handle target TP FP) { st with file := [] } with
        | .error e => .error e
        | .ok st1 =>
          match cfg.matrix I TP FP S1 with
          | .error e => .error e
          | .ok M => level2 I cfg target TP FP M S1 st1

end VLSDConfig
end Verif

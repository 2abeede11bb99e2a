import Verif.Model.IDSD
/-! Model of IDSD and of the measures it uses with rounding: after every quotient and every difference of floats the result is rounded by `ρ`
(`Float64.fl`, `Binary64.roundAny`, or any other rounding). The functions are those of `Model/Credibility` and `Model/IDSD`, with `ρ` where Python calculates with floats. The p-value is the
parameter `pv` of the configuration, as there. Simplifications: those of `Model/IDSD`; a quotient of two counts of type `numpy.int64` is the rounded quotient (counts are below `2^53`); no number
is rounded to infinity (the odds ratio of `n` rows is below `n^2`). -/
namespace Verif.IDSDRounded
open IDSD (reduceCategories selectorPairs setApp computeRank criteria lastRankPos topKUpdate maxComplexity)

/-- `quality_measures/coverage.py:47` -/
def coverage (ρ : Rat → Rat) (tp fp TP FP : Nat) : Except PyErr Rat :=
  match Quality.coverage [(kTp, (tp : Rat)), (kFp, (fp : Rat)), (kTP, (TP : Rat)), (kFP, (FP : Rat))] with
  | .error e => .error e
  | .ok q => .ok (ρ q)

/-- the odds ratio of the four counts, `odds_ratio_stat.py:61-76`: three quotients -/
def ofCounts (ρ : Rat → Rat) (tp fp TP FP : Nat) : XF :=
  if tp = TP ∧ fp = FP then .fin 0
  else if tp = TP then .inf
  else if fp = FP then .fin 0
  else if tp = 0 ∧ fp = 0 then .fin 0
  else if fp = 0 then .inf
  else .fin (ρ (ρ ((tp : Rat) / fp) / ρ (((TP : Rat) - tp) / ((FP : Rat) - fp))))

/-- the odds ratio of two boolean series, `odds_ratio_stat.py:53-76` -/
def ofBits (ρ : Rat → Rat) (app target : Bits) : XF :=
  ofCounts ρ (app.alignAnd target).ones (app.alignAnd target.not).ones target.ones target.not.ones

/-- `a - b` with floats -/
def sub (ρ : Rat → Rat) : XF → XF → XF
  | .fin a, .fin b => .fin (ρ (a - b))
  | a, b => a.sub b

/-- `a / b` with floats -/
def div (ρ : Rat → Rat) : XF → XF → Except PyErr XF
  | .fin a, .fin b => if b = 0 then .error .zeroDivisionError else .ok (.fin (ρ (a / b)))
  | a, b => a.div b

/-- the loop over the selectors, `selector_contribution.py:91-115` -/
def loop (ρ : Rat → Rat) (orOf : Pattern → Except PyErr XF) (p : Pattern) (o : XF) : List Selector → XF → XF → Except PyErr (XF × XF)
  | [], mn, mx => .ok (mn, mx)
  | s :: rest, mn, mx =>
    match orOf (p.copy.remove s) with
    | .error e => .error e
    | .ok o' => loop ρ orOf p o rest (mn.pyMin (sub ρ o o')) (mx.pyMax (sub ρ o o'))

/-- the contribution ratio, `selector_contribution.py:119-124` -/
def ratio (ρ : Rat → Rat) (mn mx : XF) : Except PyErr XF :=
  if mn.eqv (.fin 0) then .ok .inf
  else if mn.eqv .inf && mx.eqv .inf then .ok (.fin 1)
  else div ρ mx mn

/-- `SelectorContribution.compute` without a threshold, as `idsd.py:239` calls it, `selector_contribution.py:54-125` -/
def compute (ρ : Rat → Rat) (orOf : Pattern → Except PyErr XF) (p : Pattern) : Except PyErr (XF × XF) :=
  if p.len = 0 then .ok (.fin 0, .fin 0)
  else if p.len = 1 then .ok (.fin 1, .fin 1)
  else match orOf p with
    | .error e => .error e
    | .ok o => match loop ρ orOf p o p.sels .inf .ninf with
      | .error e => .error e
      | .ok (mn, mx) => match ratio ρ mn mx with
        | .error e => .error e
        | .ok r => .ok (mn, r)

/-- the odds ratios computed from the appearances of the selectors, `selector_contribution.py:78`, `:84-89`, `:100-104` -/
def appearanceOr (ρ : Rat → Rat) (apps : List (Selector × Bits)) (target : Bits) (p : Pattern) : Except PyErr XF :=
  match apps with
  | [] => .error .indexError
  | a :: _ => match SelectorContribution.appearance apps p.sels (List.replicate a.2.length true) with
    | .error e => .error e
    | .ok b => .ok (ofBits ρ b target)

/-- the credibility values with the early exit, `idsd.py:222-243` -/
def credibility (ρ : Rat → Rat) (cfg : IDSDConfig) (tp fp TP FP : Nat) (contrib : Except PyErr (XF × XF)) : Except PyErr IDSDCred :=
  match coverage ρ tp fp TP FP with
  | .error e => .error e
  | .ok cov =>
    if !((XF.fin cov).ge (.fin cfg.covT)) then .ok ⟨.fin cov, .ninf, .inf, .ninf, .inf⟩
    else
      let o := ofCounts ρ tp fp TP FP
      if !(o.ge (.fin cfg.orT)) then .ok ⟨.fin cov, o, .inf, .ninf, .inf⟩
      else
        let p := cfg.pv tp fp TP FP
        if !(p.le (.fin cfg.pT)) then .ok ⟨.fin cov, o, p, .ninf, .inf⟩
        else match contrib with
          | .error e => .error e
          | .ok (a, r) => .ok ⟨.fin cov, o, p, a, r⟩

/-- `_handle_individual_result`, `idsd.py:203-253` -/
def handle (ρ : Rat → Rat) (cfg : IDSDConfig) (TP FP : Nat) (mask : Bits) (p : Pattern) (app : Bits) (st : IDSDState) : Except PyErr IDSDState :=
  let tp := (mask.alignAnd app).ones
  let fp := app.ones - tp
  match credibility ρ cfg tp fp TP FP (compute ρ (appearanceOr ρ st.apps mask) p) with
  | .error e => .error e
  | .ok c =>
    .ok { st with top := topKUpdate cfg.num st.top ⟨p, computeRank (criteria cfg c), c.odds, c⟩, calls := st.calls ++ [p] }

/-- `_grow_tree` up to the recursive calls, `idsd.py:335-364` -/
def visit (ρ : Rat → Rat) (cfg : IDSDConfig) (complexity : Nat) (TP FP : Nat) (mask : Bits) (p : Pattern) (app : Bits) (st : IDSDState) :
    Except PyErr (IDSDState × Bool) :=
  let st := { st with visited := st.visited + (if p.len = complexity then 1 else 0), nonUnique := st.nonUnique + 1 }
  let pruned := { st with pruned := st.pruned + (if (complexity : Int) = cfg.maxC then 1 else 0) }
  match coverage ρ app.ones 0 TP FP with
  | .error e => .error e
  | .ok cov =>
    if cov = 0 then .ok (pruned, false)
    else if st.top.length = cfg.num ∧ lastRankPos st.top = true ∧ ¬ (cov ≥ cfg.covT) then
      .ok (pruned, false)
    else if p.len = complexity then
      match handle ρ cfg TP FP mask p app st with
      | .error e => .error e
      | .ok st => .ok (st, false)
    else .ok (st, true)

/-- the loop of `_grow_tree` over the selectors, `idsd.py:365-373` -/
def growLoop (ρ : Rat → Rat) (cfg : IDSDConfig) (complexity : Nat) (TP FP : Nat) (mask : Bits) :
    List Selector → Pattern → Bits → IDSDState → Except PyErr IDSDState
  | [], _, _, st => .ok st
  | s :: rest, p, app, st =>
    match st.apps.lookup s with
    | none => .error .keyError
    | some b =>
      match visit ρ cfg complexity TP FP mask (p.copy.add s) (app.alignAnd b) st with
      | .error e => .error e
      | .ok (st1, false) => growLoop ρ cfg complexity TP FP mask rest p app st1
      | .ok (st1, true) =>
        match growLoop ρ cfg complexity TP FP mask rest (p.copy.add s) (app.alignAnd b) st1 with
        | .error e => .error e
        | .ok st2 => growLoop ρ cfg complexity TP FP mask rest p app st2

/-- `_grow_tree`, `idsd.py:323-373` -/
def growTree (ρ : Rat → Rat) (cfg : IDSDConfig) (complexity : Nat) (TP FP : Nat) (mask : Bits) (sels : List Selector) (p : Pattern) (app : Bits)
    (st : IDSDState) : Except PyErr IDSDState :=
  match visit ρ cfg complexity TP FP mask p app st with
  | .error e => .error e
  | .ok (st, false) => .ok st
  | .ok (st, true) => growLoop ρ cfg complexity TP FP mask sels p app st

/-- the iterations `for complexity in range(1, max_complexity + 1)`, `idsd.py:411-412` -/
def deepen (ρ : Rat → Rat) (cfg : IDSDConfig) (TP FP : Nat) (mask : Bits) (sels : List Selector) (n : Nat) : List Nat → IDSDState → Except PyErr IDSDState
  | [], st => .ok st
  | c :: cs, st => match growTree ρ cfg c TP FP mask sels (Pattern.new []) (List.replicate n true) st with
    | .error e => .error e
    | .ok st => deepen ρ cfg TP FP mask sels n cs st

/-- `IDSD.fit`, `idsd.py:375-414` -/
def fit (ρ : Rat → Rat) (cfg : IDSDConfig) (st : IDSDState) (df : Frame) (target : Str × Str) : Except PyErr IDSDState :=
  if !df.nominal then .error .datasetAttributeType
  else match targetMask df target with
    | .error _ => .error .valueError
    | .ok mask =>
      if !mask.any id then .error .valueError
      else
        let TP := mask.count true
        let df' := reduceCategories cfg.ties cfg.cats df target.1
        let pairs := selectorPairs df' target.1
        deepen ρ cfg TP (df.nrows - TP) mask (pairs.map (·.1)) df.nrows ((List.range (maxComplexity cfg df')).map (· + 1))
          { st with top := [], calls := [], apps := pairs.foldl (fun d e => setApp d e.1 e.2) st.apps }

end Verif.IDSDRounded

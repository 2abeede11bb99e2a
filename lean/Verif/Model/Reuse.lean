import Verif.Model.QFinder
import Verif.Model.SDIGA
/-! Objects that are used again after a `fit` that raised or was interrupted: the attributes as they are assigned one after the other. -/
namespace Verif

namespace QFinder

/-- `QFinder.fit`, `qfinder.py:288-313`, with the state of the object also when it raises: `_candidate_patterns` is assigned at `:303` and again at `:307`, `_credibility_values` at `:308`, `_top_patterns` at `:310`.
Simplification: without file. -/
def fitObj (cfg : QFConfig) (st : QFState) (df : Frame) (target : Str × Str) : QFState × Option PyErr :=
  if !df.nominal then (st, some .datasetAttributeType)
  else match targetMask df target with
    | .error _ => (st, some .keyError)
    | .ok mask =>
      match bitsetLoop df target.1 (candidates cfg df target.1) [] with
      | .error e => ({ st with cands := candidates cfg df target.1 }, some e)
      | .ok bits => match (bits.map (·.1)).mapM Pattern.generateFromStr with
        | .error e => ({ st with cands := candidates cfg df target.1 }, some e)
        | .ok cands => match credTable cfg bits mask df.nrows with
          | .error e => ({ st with cands := cands }, some e)
          | .ok table => match cands.mapM (withCred table) with
            | .error e => ({ st with cands := cands, table := table }, some e)
            | .ok es => match selectTopK cfg (rankPatterns cfg es) with
              | .error e => ({ st with cands := cands, table := table }, some e)
              | .ok top => (⟨cands, table, top⟩, none)

/-- `fit` calls one after the other, exceptions caught -/
def fitAll (cfg : QFConfig) (calls : List (Frame × (Str × Str))) (st : QFState) : QFState :=
  calls.foldl (fun st c => (fitObj cfg st c.1 c.2).1) st

end QFinder

namespace IDSD

/-- what can happen to an `IDSD` object: a `fit` that returns or raises, or one that is stopped (say, by Ctrl-C) after `k` of the assignments of `_generate_selectors`, `idsd.py:200`; `rest` stands for whatever the
other attributes are then -/
inductive Past
  | fit (df : Frame) (target : Str × Str)
  | stopped (df : Frame) (target : Str × Str) (k : Nat) (rest : IDSDState)

/-- the object after one of these. A `fit` whose arguments are refused raises before it changes anything, `idsd.py:383-392`; one that raises later is, like one that is
interrupted, a `stopped` one with a `k` that is large enough. -/
def Past.apply (cfg : IDSDConfig) (st : IDSDState) : Past → IDSDState
  | .fit df target => match IDSD.fit cfg st df target with
    | .ok st' => st'
    | .error _ => st
  | .stopped df target k rest =>
    { rest with apps := ((selectorPairs (reduceCategories cfg.ties cfg.cats df target.1) target.1).take k).foldl (fun d e => setApp d e.1 e.2) st.apps }

/-- the object after a history -/
def Past.run (cfg : IDSDConfig) (h : List Past) (st : IDSDState) : IDSDState := h.foldl (Past.apply cfg) st

end IDSD
end Verif

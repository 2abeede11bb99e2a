import Verif.Model.Quality
/-! Specification of the quality measures by their textbook formulas. `v k` is the value of parameter `k`. -/
namespace Verif.Spec

/-- the parameters a measure needs -/
def needs : Measure → List Str
  | .support => [kTp, kTP, kFP]
  | .coverage | .wracc | .absoluteWracc | .npv | .youden | .piatetskyShapiro | .psOE1 | .wraccOE1 => [kTp, kFp, kTP, kFP]
  | .ppv => [kTp, kFp]
  | .sensitivity => [kTp, kTP]
  | .specificity => [kFp, kFP]
  | .f1 => [kTp, kFp, kTP]
  | .irr => [kTp, kFp, kFP]
  | .qg => [kTp, kFp, kG]
  | .psOE2 => [kTp, kTP, kFP]

/-- the measure is defined: none of these numbers is zero -/
def denoms (m : Measure) (v : Str → Rat) : List Rat :=
  match m with
  | .support | .coverage | .psOE1 | .psOE2 => [v kTP + v kFP]
  | .wracc | .absoluteWracc | .piatetskyShapiro | .wraccOE1 => [v kTp + v kFp, v kTP + v kFP]
  | .ppv => [v kTp + v kFp]
  | .npv => [(v kTP - v kTp) + (v kFP - v kFp)]
  | .sensitivity => [v kTP]
  | .specificity => [v kFP]
  | .f1 => [v kTp + v kFp + v kTP]
  | .irr => [v kTp + v kFp, v kFP]
  | .youden => [v kTP, v kFP]
  | .qg => [v kFp + v kG]

/-- the textbook value, with `n = tp + fp` covered rows, `N = TP + FP` rows, `fn = TP - tp`, `tn = FP - fp` -/
def formula (m : Measure) (v : Str → Rat) : Rat :=
  let tp := v kTp
  let fp := v kFp
  let TP := v kTP
  let FP := v kFP
  let n := tp + fp
  let N := TP + FP
  let tn := FP - fp
  let fn := TP - tp
  match m with
  | .support => tp / N
  | .coverage => n / N
  | .wracc => tp / N - (n / N) * (TP / N)
  | .absoluteWracc => |tp / N - (n / N) * (TP / N)|
  | .ppv => tp / n
  | .npv => tn / (tn + fn)
  | .sensitivity => tp / TP
  | .specificity => tn / FP
  | .f1 => tp / ((n + TP) / 2)
  | .irr => tp / n - fp / FP
  | .youden => tp / TP - fp / FP
  | .qg => tp / (fp + v kG)
  | .piatetskyShapiro => tp - n * (TP / N)
  | .psOE1 => n * (FP / N)
  | .psOE2 => tp * (FP / N)
  | .wraccOE1 => (tp ^ 2 / n) * (FP / N)

/-- the dictionary carries these counts -/
def HasCounts (d : Params) (tp fp TP FP : Rat) : Prop :=
  d.lookup kTp = some tp ∧ d.lookup kFp = some fp ∧ d.lookup kTP = some TP ∧ d.lookup kFP = some FP

/-- and they are admissible: between zero and the population -/
def Admissible (d : Params) (tp fp TP FP : Rat) : Prop :=
  HasCounts d tp fp TP FP ∧ 0 ≤ tp ∧ tp ≤ TP ∧ 0 ≤ fp ∧ fp ≤ FP

end Verif.Spec

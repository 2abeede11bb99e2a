import Verif.Model.SDIGA
/-! Model of the random draws of `src/subgroups/algorithms/subgroup_sets/sdiga.py`: which choices (`SDIGAChoice`) the calls of `numpy.random` in the code make. -/
namespace Verif

/-- the calls of `numpy.random` that the code makes, on a generator with states `σ`: `random.rand()`; `random.randint(0, n)`, which excludes `n`, and `random.choice(range(n))`;
`random.choice(range(n), 2, replace=False)` -/
structure RandGen (σ : Type) where
  rand : σ → Rat × σ
  below : Nat → σ → Nat × σ
  two : Nat → σ → (Nat × Nat) × σ

namespace SDIGA
variable {σ : Type}

/-- one chromosome of `_generate_population`, `sdiga.py:163`: one draw per key, in the order of the dictionary; `randint(0, len(value)+1)` -/
def drawChrom (g : RandGen σ) : List (Str × List Val) → σ → Chrom × σ
  | [], s => ([], s)
  | e :: dict, s =>
    let x := g.below (e.2.length + 1) s
    let r := drawChrom g dict x.2
    (x.1 :: r.1, r.2)

/-- `_generate_population`, `sdiga.py:149-167` -/
def drawPop (g : RandGen σ) (dict : List (Str × List Val)) : Nat → σ → List Chrom × σ
  | 0, s => ([], s)
  | n + 1, s =>
    let c := drawChrom g dict s
    let r := drawPop g dict n c.2
    (c.1 :: r.1, r.2)

/-- the draws of `_perform_crossover`, `sdiga.py:339-340`: the sorted points. `len` is `len(parent1)`: the number of columns of the population other than `fitness`. -/
def drawCross (g : RandGen σ) (cfg : SDIGAConfig) (len : Nat) (s : σ) : Option (Nat × Nat) × σ :=
  let r := g.rand s
  if r.1 < cfg.crossProb then
    let p := g.two len r.2
    (some (min p.1.1 p.1.2, max p.1.1 p.1.2), p.2)
  else (none, r.2)

/-- the draws of `_perform_mutation`, `sdiga.py:353-358`: the position and the new gene; `cd` are the keys of the chromosome with their values -/
def drawMut (g : RandGen σ) (cfg : SDIGAConfig) (cd : List (Str × List Val)) (s : σ) : Option (Nat × Nat) × σ :=
  let r := g.rand s
  if r.1 < cfg.mutProb then
    let i := g.below cd.length r.2
    let h := g.rand i.2
    if h.1 < 1 / 2 then (some (i.1, 0), h.2)
    else
      let v := g.below (cd.getD i.1 ([], [])).2.length h.2
      (some (i.1, v.1 + 1), v.2)
  else (none, r.2)

/-- the draws of one generation, `sdiga.py:470-474`: crossover, then the mutation of each child; `sort` is the order in which `nlargest` leaves the rows -/
def drawGen (g : RandGen σ) (cfg : SDIGAConfig) (cd : List (Str × List Val)) (sort : List Ind → List Ind) (s : σ) : GenChoice × σ :=
  let x := drawCross g cfg cd.length s
  let y := drawMut g cfg cd x.2
  let z := drawMut g cfg cd y.2
  (⟨x.1, y.1, z.1, sort⟩, z.2)

/-- the state of the generator before generation `k` of a turn, when it was `s` before the first generation (the draws do not depend on the population) -/
def genState (g : RandGen σ) (cfg : SDIGAConfig) (cd : List (Str × List Val)) : Nat → σ → σ
  | 0, s => s
  | k + 1, s => genState g cfg cd k (drawGen g cfg cd id s).2

/-- the choices of one turn, `sdiga.py:449-488`: the population, then the generations; `sort 0` orders the first population, `sort (k + 1)` is `nlargest` in generation `k` -/
def turnChoice (g : RandGen σ) (cfg : SDIGAConfig) (dict : List (Str × List Val)) (sort : Nat → List Ind → List Ind) (s : σ) : SDIGAChoice :=
  let p := drawPop g dict cfg.popSize s
  ⟨p.1, sort 0, fun k => (drawGen g cfg (chromDict dict) (sort (k + 1)) (genState g cfg (chromDict dict) k p.2)).1⟩

/-- the state of the generator after a turn -/
def turnState (g : RandGen σ) (cfg : SDIGAConfig) (dict : List (Str × List Val)) (s : σ) : σ :=
  genState g cfg (chromDict dict) cfg.maxGen (drawPop g dict cfg.popSize s).2

/-- the state of the generator before turn `k` of the loop `sdiga.py:447-533` -/
def loopState (g : RandGen σ) (cfg : SDIGAConfig) (dict : List (Str × List Val)) : Nat → σ → σ
  | 0, s => s
  | k + 1, s => loopState g cfg dict k (turnState g cfg dict s)

/-- `SDIGA.fit`, `sdiga.py:536-566`, with a generator in the state `s`; `sort k` are the orders left by the sorts of turn `k`. An exception ends the method, so the draws that
would follow do not matter. -/
def fitRandom (g : RandGen σ) (cfg : SDIGAConfig) (sort : Nat → Nat → List Ind → List Ind) (fuel : Nat) (s : σ) (st : SDIGAState) (df : Frame) (target : Str × Str) :
    Option (Except PyErr SDIGAState) :=
  SDIGA.fit cfg (fun k => turnChoice g cfg (encodeDict df target.1) (sort k) (loopState g cfg (encodeDict df target.1) k s)) fuel st df target

end SDIGA
end Verif

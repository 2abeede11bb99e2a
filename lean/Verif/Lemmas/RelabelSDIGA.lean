import Verif.Lemmas.RelabelLists
import Verif.Lemmas.ShuffleSDIGA
/-! Lemmas for C97: SDIGA on data with other names. -/
namespace Verif
open Spec
namespace SDIGA

/-! ### chromosomes with other codes -/

/-- the chromosome with the code of position `j` changed by `σ j` -/
def recode (σ : Nat → Nat ≃ Nat) (c : Chrom) : Chrom := c.mapIdx (fun j g => σ j g)

def recodeInd (σ : Nat → Nat ≃ Nat) (x : Ind) : Ind := ⟨recode σ x.genes, x.fit⟩

def recodeGen (σ : Nat → Nat ≃ Nat) (g : GenChoice) : GenChoice :=
  ⟨g.cross, g.mut1.map (fun m => (m.1, σ m.1 m.2)), g.mut2.map (fun m => (m.1, σ m.1 m.2)), fun l => (g.sort (l.map (recodeInd (fun j => (σ j).symm)))).map (recodeInd σ)⟩

/-- the random choices with other codes -/
def recodeChoice (σ : Nat → Nat ≃ Nat) (o : SDIGAChoice) : SDIGAChoice :=
  ⟨o.pop.map (recode σ), fun l => (o.sort (l.map (recodeInd (fun j => (σ j).symm)))).map (recodeInd σ), fun k => recodeGen σ (o.gens k)⟩

section
variable {σ : Nat → Nat ≃ Nat}

theorem recode_length (c : Chrom) : (recode σ c).length = c.length := by simp [recode]

theorem recode_get (c : Chrom) (i : Nat) : (recode σ c)[i]? = c[i]?.map (fun g => σ i g) := by simp [recode, List.getElem?_mapIdx]

theorem recode_set (c : Chrom) (i g : Nat) : recode σ (c.set i g) = (recode σ c).set i (σ i g) := by
  apply List.ext_getElem?
  intro j
  rw [recode_get, List.getElem?_set, List.getElem?_set, recode_get, recode_length]
  split
  · rename_i h; subst h; split <;> rfl
  · rfl

theorem recode_symm (c : Chrom) : recode (fun j => (σ j).symm) (recode σ c) = c := by
  apply List.ext_getElem?
  intro j
  rw [recode_get, recode_get]
  cases c[j]? <;> simp

theorem recodeInd_symm (l : List Ind) : (l.map (recodeInd σ)).map (recodeInd (fun j => (σ j).symm)) = l := by
  rw [List.map_map]
  conv_rhs => rw [← List.map_id l]
  apply List.map_congr_left
  intro x _
  simp [recodeInd, recode_symm]

theorem recodeInd_symm' (l : List Ind) : (l.map (recodeInd (fun j => (σ j).symm))).map (recodeInd σ) = l := by
  have := recodeInd_symm (σ := fun j => (σ j).symm) l
  simpa using this

theorem recode_refl (c : Chrom) : recode (fun _ => Equiv.refl Nat) c = c := by
  apply List.ext_getElem?
  intro j
  rw [recode_get]
  cases c[j]? <;> simp

theorem recodeChoice_refl (o : SDIGAChoice) : recodeChoice (fun _ => Equiv.refl Nat) o = o := by
  have h1 : (recode fun _ => Equiv.refl Nat) = id := funext recode_refl
  have h2 : (recodeInd fun _ => Equiv.refl Nat) = id := by
    funext x
    simp [recodeInd, recode_refl]
  have h3 : (recodeGen fun _ => Equiv.refl Nat) = id := by
    funext g
    simp [recodeGen, h2]
  simp [recodeChoice, h1, h2, h3]

/-- the row with other codes and another name of its target cell -/
def recodeRow (σ : Nat → Nat ≃ Nat) (f : Str → Str) (r : ERow) : ERow := ⟨r.idx, recode σ r.genes, renameVal f r.tgt⟩

variable {f : Str → Str}

theorem recode_mask (h0 : ∀ j, σ j 0 = 0) (c : Chrom) (r : ERow) : rowMask (recode σ c) (recodeRow σ f r) = rowMask c r := by
  unfold rowMask recodeRow
  simp only
  generalize r.genes = g
  unfold recode
  induction c generalizing g σ with
  | nil => rfl
  | cons a c ih =>
    cases g with
    | nil => simp
    | cons b g =>
      simp only [List.mapIdx_cons, List.zip_cons_cons, List.all_cons]
      rw [ih (σ := fun j => σ (j + 1)) (fun j => h0 (j + 1)) g]
      congr 1
      have e1 : (σ 0 a == 0) = (a == 0) := by
        rw [Bool.eq_iff_iff, beq_iff_eq, beq_iff_eq]
        exact ⟨fun h => (σ 0).injective (h.trans (h0 0).symm), fun h => h ▸ h0 0⟩
      have e2 : (σ 0 b == σ 0 a) = (b == a) := by
        rw [Bool.eq_iff_iff, beq_iff_eq, beq_iff_eq, (σ 0).apply_eq_iff_eq]
      rw [e1, e2]

theorem recode_with (h0 : ∀ j, σ j 0 = 0) (c : Chrom) (rows : List ERow) : filterWith (recode σ c) (rows.map (recodeRow σ f)) = (filterWith c rows).map (recodeRow σ f) := by
  unfold filterWith
  rw [List.filter_map]
  congr 1
  exact List.filter_congr (fun r _ => recode_mask h0 c r)

theorem recode_without (h0 : ∀ j, σ j 0 = 0) (c : Chrom) (rows : List ERow) : filterWithout (recode σ c) (rows.map (recodeRow σ f)) = (filterWithout c rows).map (recodeRow σ f) := by
  unfold filterWithout
  rw [List.filter_map]
  congr 1
  exact List.filter_congr (fun r _ => by rw [Function.comp_apply, recode_mask h0 c r])

theorem rename_eq (hf : Function.Injective f) (v : Val) (t : Str) : (renameVal f v).eq (.str (f t)) = v.eq (.str t) := by
  cases v with
  | str s =>
    simp only [renameVal, Val.eq]
    rw [Bool.eq_iff_iff, beq_iff_eq, beq_iff_eq, hf.eq_iff]
  | int i => rfl
  | flt x => rfl

theorem recode_count (hf : Function.Injective f) (t : Str) (rows : List ERow) : countTarget (f t) (rows.map (recodeRow σ f)) = countTarget t rows := by
  unfold countTarget
  rw [List.countP_map]
  apply List.countP_congr
  intro r _
  simp only [Function.comp_apply, recodeRow, rename_eq hf]

theorem recode_tpFp (h0 : ∀ j, σ j 0 = 0) (hf : Function.Injective f) (c : Chrom) (rows : List ERow) (t : Str) :
    tpFp (recode σ c) (rows.map (recodeRow σ f)) (f t) = tpFp c rows t := by
  unfold tpFp
  simp only [recode_with h0, recode_count hf, List.length_map]

/-- the state with other codes, whatever happens to the patterns and the lines -/
structure Recoded (σ : Nat → Nat ≃ Nat) (f : Str → Str) (ren : Pattern → Pattern) (renL : SDIGALine → SDIGALine) (a b : SDIGAState) : Prop where
  selected : b.selected = a.selected
  unselected : b.unselected = a.unselected
  file : b.file = a.file.map renL
  cases : b.cases = a.cases.map ren
  unchecked : b.unchecked = a.unchecked.map (recodeRow σ f)
  TP : b.TP = a.TP
  FP : b.FP = a.FP
  TPu : b.TPu = a.TPu
  FPu : b.FPu = a.FPu

variable {ren : Pattern → Pattern} {renL : SDIGALine → SDIGALine} {cfg : SDIGAConfig} {a b : SDIGAState} {rows : List ERow} {t : Str}

theorem recode_fitness (h0 : ∀ j, σ j 0 = 0) (hf : Function.Injective f) (h : Recoded σ f ren renL a b) (c : Chrom) :
    fitness cfg b (rows.map (recodeRow σ f)) (f t) (recode σ c) = fitness cfg a rows t c := by
  unfold fitness
  rw [h.unchecked, recode_tpFp h0 hf, recode_tpFp h0 hf, h.TPu, h.FPu]

def recodeMetrics (σ : Nat → Nat ≃ Nat) (m : Metrics) : Metrics := { m with chrom := recode σ m.chrom }

theorem recode_measure (h0 : ∀ j, σ j 0 = 0) (hf : Function.Injective f) (h : Recoded σ f ren renL a b) (c : Chrom) :
    measure b (rows.map (recodeRow σ f)) (f t) (recode σ c) = (measure a rows t c).map (recodeMetrics σ) := by
  unfold measure
  simp only [bind, Except.bind, pure, Except.pure]
  rw [recode_tpFp h0 hf, h.TP, h.FP]
  cases calculateSupport (tpFp c rows t).1 a.TP a.FP with
  | error e => rfl
  | ok s =>
    simp only
    cases calculateConfidence (tpFp c rows t).1 (tpFp c rows t).2 <;> rfl

theorem recode_drop (h0 : ∀ j, σ j 0 = 0) (hf : Function.Injective f) (h : Recoded σ f ren renL a b) (cur : Metrics) (acc : Option Metrics × Rat) (i : Nat) :
    dropStep b (rows.map (recodeRow σ f)) (f t) (recodeMetrics σ cur) (acc.1.map (recodeMetrics σ), acc.2) i =
      (dropStep a rows t cur acc i).map (fun x => (x.1.map (recodeMetrics σ), x.2)) := by
  unfold dropStep
  have e1 : ((recodeMetrics σ cur).chrom[i]?.getD 0 = 0) ↔ (cur.chrom[i]?.getD 0 = 0) := by
    simp only [recodeMetrics, recode_get]
    cases cur.chrom[i]? with
    | none => simp
    | some g =>
      simp only [Option.map_some, Option.getD_some]
      exact ⟨fun hh => (σ i).injective (hh.trans (h0 i).symm), fun hh => hh ▸ h0 i⟩
  have e2 : (recodeMetrics σ cur).chrom.set i 0 = recode σ (cur.chrom.set i 0) := by
    rw [recode_set, h0]; rfl
  by_cases hg : cur.chrom[i]?.getD 0 = 0
  · rw [if_pos hg, if_pos (e1.2 hg)]; rfl
  · rw [if_neg hg, if_neg (fun hh => hg (e1.1 hh)), e2, recode_measure h0 hf h]
    cases measure a rows t (cur.chrom.set i 0) with
    | error e => rfl
    | ok m =>
      simp only [Except.map]
      have p1 : ∀ x : Metrics, (recodeMetrics σ x).support = x.support := fun _ => rfl
      have p2 : ∀ x : Metrics, (recodeMetrics σ x).confidence = x.confidence := fun _ => rfl
      simp only [p1, p2]
      by_cases h1 : m.support ≥ cur.support ∧ m.confidence ≥ cur.confidence ∧ m.confidence > 0
      · simp only [if_pos h1]
        by_cases h2 : m.support - cur.support > acc.2
        · simp only [if_pos h2]; rfl
        · simp only [if_neg h2]
      · simp only [if_neg h1]

theorem recode_drops (h0 : ∀ j, σ j 0 = 0) (hf : Function.Injective f) (h : Recoded σ f ren renL a b) (cur : Metrics) (L : List Nat) (acc : Option Metrics × Rat) :
    L.foldlM (dropStep b (rows.map (recodeRow σ f)) (f t) (recodeMetrics σ cur)) (acc.1.map (recodeMetrics σ), acc.2) =
      (L.foldlM (dropStep a rows t cur) acc).map (fun x => (x.1.map (recodeMetrics σ), x.2)) := by
  induction L generalizing acc with
  | nil => rfl
  | cons i L ih =>
    simp only [List.foldlM_cons, bind, Except.bind]
    rw [recode_drop h0 hf h]
    cases dropStep a rows t cur acc i with
    | error e => rfl
    | ok r => exact ih r

theorem recode_search (h0 : ∀ j, σ j 0 = 0) (hf : Function.Injective f) (h : Recoded σ f ren renL a b) (n : Nat) (m : Metrics) :
    searchLoop b (rows.map (recodeRow σ f)) (f t) n (recodeMetrics σ m) = (searchLoop a rows t n m).map (recodeMetrics σ) := by
  induction n generalizing m with
  | zero => rfl
  | succ n ih =>
    unfold searchLoop
    have e : (recodeMetrics σ m).chrom.length = m.chrom.length := recode_length _
    have := recode_drops (rows := rows) (t := t) h0 hf h m (List.range m.chrom.length) (none, 0)
    simp only [Option.map_none] at this
    rw [e, this]
    cases List.foldlM (dropStep a rows t m) ((none : Option Metrics), (0 : Rat)) (List.range m.chrom.length) with
    | error e => rfl
    | ok r =>
      obtain ⟨r, q⟩ := r
      cases r with
      | none => rfl
      | some m' => exact ih m'

theorem recode_local (h0 : ∀ j, σ j 0 = 0) (hf : Function.Injective f) (h : Recoded σ f ren renL a b) (c : Chrom) :
    localSearch cfg b (rows.map (recodeRow σ f)) (f t) (recode σ c) = (localSearch cfg a rows t c).map (fun x => (recode σ x.1, x.2)) := by
  unfold localSearch
  simp only [bind, Except.bind, pure, Except.pure]
  rw [recode_measure h0 hf h, recode_length]
  cases measure a rows t c with
  | error e => rfl
  | ok m0 =>
    simp only [Except.map]
    rw [recode_search h0 hf h]
    cases searchLoop a rows t (c.length + 1) m0 with
    | error e => rfl
    | ok best =>
      simp only [Except.map]
      by_cases hb : best.confidence ≥ cfg.minConf
      · rw [if_pos (show (recodeMetrics σ best).confidence ≥ cfg.minConf from hb), if_pos hb]
        rw [show (recodeMetrics σ best).chrom = recode σ best.chrom from rfl, recode_fitness h0 hf h]
        cases fitness cfg a rows t best.chrom <;> rfl
      · rw [if_neg (show ¬ (recodeMetrics σ best).confidence ≥ cfg.minConf from hb), if_neg hb, recode_fitness h0 hf h]
        cases fitness cfg a rows t c <;> rfl

/-! ### the genetic algorithm -/

theorem recode_crossover {n : Nat} {p1 p2 : Chrom} (h1 : p1.length = n) (h2 : p2.length = n) {ch : Option (Nat × Nat)} (hc : 2 ≤ n → ∀ x y, ch = some (x, y) → x < y ∧ y < n) :
    crossover ch (recode σ p1) (recode σ p2) = (crossover ch p1 p2).map (fun x => (recode σ x.1, recode σ x.2)) := by
  unfold crossover
  cases ch with
  | none => rfl
  | some ab =>
    obtain ⟨x, y⟩ := ab
    simp only [recode_length]
    split
    · rfl
    · obtain ⟨g1, g2⟩ := hc (by omega) x y rfl
      have key : ∀ p q : Chrom, p.length = n → q.length = n → (recode σ p).take x ++ ((recode σ q).take y).drop x ++ (recode σ p).drop y = recode σ (p.take x ++ (q.take y).drop x ++ p.drop y) := by
        intro p q hp hq
        apply List.ext_getElem?
        intro i
        rw [recode_get]
        simp only [List.getElem?_append, List.length_append, List.length_take, List.length_drop, recode_length, List.getElem?_take, List.getElem?_drop, recode_get, hp, hq]
        have m1 : min x n = x := by omega
        have m2 : min y n = y := by omega
        simp only [m1, m2]
        by_cases i1 : i < x
        · simp only [i1, if_true, show i < x + (y - x) from by omega]
        · by_cases i2 : i < y
          · simp only [i1, if_false, show i < x + (y - x) from by omega, show x + (i - x) = i from by omega, i2, if_true]
          · simp only [show ¬ i < x + (y - x) from by omega, if_false, show y + (i - (x + (y - x))) = i from by omega]
      rw [key p1 p2 h1 h2, key p2 p1 h2 h1]
      rfl

theorem recode_mutation (ch : Option (Nat × Nat)) (c : Chrom) : mutation (ch.map (fun m => (m.1, σ m.1 m.2))) (recode σ c) = recode σ (mutation ch c) := by
  cases ch with
  | none => rfl
  | some m => exact (recode_set c m.1 m.2).symm

theorem recode_setLast (pop : List Ind) (x : Ind) : setLast (pop.map (recodeInd σ)) (recodeInd σ x) = (setLast pop x).map (recodeInd σ) := by
  unfold setLast
  rw [List.map_set, List.length_map]

theorem crossover_length {n : Nat} {p1 p2 : Chrom} (h1 : p1.length = n) (h2 : p2.length = n) {ch : Option (Nat × Nat)} (hc : 2 ≤ n → ∀ x y, ch = some (x, y) → x < y ∧ y < n)
    {d : Chrom × Chrom} (hd : crossover ch p1 p2 = .ok d) : d.1.length = n ∧ d.2.length = n := by
  unfold crossover at hd
  cases ch with
  | none => cases hd; exact ⟨h1, h2⟩
  | some ab =>
    obtain ⟨x, y⟩ := ab
    simp only at hd
    split at hd
    · cases hd
    · obtain ⟨g1, g2⟩ := hc (by omega) x y rfl
      cases hd
      simp only [List.length_append, List.length_take, List.length_drop, h1, h2]
      omega

theorem mutation_length (ch : Option (Nat × Nat)) (c : Chrom) : (mutation ch c).length = c.length := by
  cases ch <;> simp [mutation]

theorem recode_generation {n : Nat} (h0 : ∀ j, σ j 0 = 0) (hf : Function.Injective f) (h : Recoded σ f ren renL a b) {pop : List Ind} (hp : ∀ x ∈ pop, x.genes.length = n) {g : GenChoice}
    (hc : 2 ≤ n → ∀ x y, g.cross = some (x, y) → x < y ∧ y < n) :
    generation cfg b (rows.map (recodeRow σ f)) (f t) (pop.map (recodeInd σ)) (recodeGen σ g) = (generation cfg a rows t pop g).map (List.map (recodeInd σ)) := by
  unfold generation
  rw [List.getElem?_map, List.getElem?_map]
  cases e1 : pop[0]? with
  | none => rfl
  | some i1 =>
    cases e2 : pop[1]? with
    | none => rfl
    | some i2 =>
      simp only [Option.map_some, bind, Except.bind, pure, Except.pure]
      have l1 := hp i1 (List.mem_of_getElem? e1)
      have l2 := hp i2 (List.mem_of_getElem? e2)
      rw [show (recodeGen σ g).cross = g.cross from rfl, show (recodeInd σ i1).genes = recode σ i1.genes from rfl, show (recodeInd σ i2).genes = recode σ i2.genes from rfl,
        recode_crossover l1 l2 hc]
      cases crossover g.cross i1.genes i2.genes with
      | error e => rfl
      | ok d =>
        simp only [Except.map]
        rw [show (recodeGen σ g).mut1 = g.mut1.map (fun m => (m.1, σ m.1 m.2)) from rfl, show (recodeGen σ g).mut2 = g.mut2.map (fun m => (m.1, σ m.1 m.2)) from rfl,
          recode_mutation, recode_mutation, recode_fitness h0 hf h, recode_fitness h0 hf h]
        cases fitness cfg a rows t (mutation g.mut1 d.1) with
        | error e => rfl
        | ok f1 =>
          simp only
          cases fitness cfg a rows t (mutation g.mut2 d.2) with
          | error e => rfl
          | ok f2 =>
            simp only
            rw [show (⟨recode σ (mutation g.mut1 d.1), f1⟩ : Ind) = recodeInd σ ⟨mutation g.mut1 d.1, f1⟩ from rfl,
              show (⟨recode σ (mutation g.mut2 d.2), f2⟩ : Ind) = recodeInd σ ⟨mutation g.mut2 d.2, f2⟩ from rfl, recode_setLast, recode_setLast]
            simp only [recodeGen, recodeInd_symm, List.map_take]

theorem generation_length {n : Nat} {pop pop' : List Ind} (hp : ∀ x ∈ pop, x.genes.length = n) {g : GenChoice} (hs : ∀ l, (g.sort l).Perm l)
    (hc : 2 ≤ n → ∀ x y, g.cross = some (x, y) → x < y ∧ y < n) (hg : generation cfg a rows t pop g = .ok pop') : ∀ x ∈ pop', x.genes.length = n := by
  unfold generation at hg
  cases e1 : pop[0]? with
  | none => rw [e1] at hg; cases hg
  | some i1 =>
    cases e2 : pop[1]? with
    | none => rw [e1, e2] at hg; cases hg
    | some i2 =>
      have l1 := hp i1 (List.mem_of_getElem? e1)
      have l2 := hp i2 (List.mem_of_getElem? e2)
      rw [e1, e2] at hg
      simp only [bind, Except.bind, pure, Except.pure] at hg
      cases hd : crossover g.cross i1.genes i2.genes with
      | error e => rw [hd] at hg; cases hg
      | ok d =>
        obtain ⟨k1, k2⟩ := crossover_length l1 l2 hc hd
        rw [hd] at hg
        simp only at hg
        cases f1 : fitness cfg a rows t (mutation g.mut1 d.1) with
        | error e => rw [f1] at hg; cases hg
        | ok x1 =>
          cases f2 : fitness cfg a rows t (mutation g.mut2 d.2) with
          | error e => rw [f1, f2] at hg; cases hg
          | ok x2 =>
            rw [f1, f2] at hg
            cases hg
            intro x hx
            have hx := (hs _).mem_iff.1 (List.mem_of_mem_take hx)
            rcases List.mem_or_eq_of_mem_set hx with hx | rfl
            · rcases List.mem_or_eq_of_mem_set hx with hx | rfl
              · exact hp x hx
              · simp only [mutation_length, k1]
            · simp only [mutation_length, k2]

theorem recode_gens {n : Nat} (h0 : ∀ j, σ j 0 = 0) (hf : Function.Injective f) (h : Recoded σ f ren renL a b) (gens : Nat → GenChoice) (hs : ∀ k l, ((gens k).sort l).Perm l)
    (hc : 2 ≤ n → ∀ k x y, (gens k).cross = some (x, y) → x < y ∧ y < n) (L : List Nat) {pop : List Ind} (hp : ∀ x ∈ pop, x.genes.length = n) :
    L.foldlM (fun pop k => generation cfg b (rows.map (recodeRow σ f)) (f t) pop (recodeGen σ (gens k))) (pop.map (recodeInd σ)) =
      (L.foldlM (fun pop k => generation cfg a rows t pop (gens k)) pop).map (List.map (recodeInd σ)) := by
  induction L generalizing pop with
  | nil => rfl
  | cons k L ih =>
    simp only [List.foldlM_cons, bind, Except.bind]
    rw [recode_generation h0 hf h hp (fun h2 => hc h2 k)]
    cases hg : generation cfg a rows t pop (gens k) with
    | error e => rfl
    | ok pop' => exact ih (generation_length hp (hs k) (fun h2 => hc h2 k) hg)

theorem gens_length {n : Nat} (gens : Nat → GenChoice) (hs : ∀ k l, ((gens k).sort l).Perm l)
    (hc : 2 ≤ n → ∀ k x y, (gens k).cross = some (x, y) → x < y ∧ y < n) (L : List Nat) {pop pop' : List Ind} (hp : ∀ x ∈ pop, x.genes.length = n)
    (hg : L.foldlM (fun pop k => generation cfg a rows t pop (gens k)) pop = .ok pop') : ∀ x ∈ pop', x.genes.length = n := by
  induction L generalizing pop with
  | nil => cases hg; exact hp
  | cons k L ih =>
    simp only [List.foldlM_cons, bind, Except.bind] at hg
    cases h1 : generation cfg a rows t pop (gens k) with
    | error e => rw [h1] at hg; cases hg
    | ok pop1 => rw [h1] at hg; exact ih (generation_length hp (hs k) (fun h2 => hc h2 k) h1) hg

theorem dropFitness_all {dict : List (Str × List Val)} (hn : ∀ e ∈ dict, e.1 ≠ c!"fitness") {c : Chrom} (hl : c.length = dict.length) : dropFitness dict c = c := by
  unfold dropFitness
  rw [List.filter_eq_self.2 (fun e he => by simpa using hn e.1 (List.of_mem_zip he).1)]
  rw [List.map_snd_zip]
  omega

theorem chromDict_id {dict : List (Str × List Val)} (hn : ∀ e ∈ dict, e.1 ≠ c!"fitness") : chromDict dict = dict :=
  List.filter_eq_self.2 (fun e he => by simpa using hn e he)

theorem recode_evaluate {dict dict' : List (Str × List Val)} (h0 : ∀ j, σ j 0 = 0) (hf : Function.Injective f) (h : Recoded σ f ren renL a b)
    (hn : ∀ e ∈ dict, e.1 ≠ c!"fitness") (hn' : ∀ e ∈ dict', e.1 ≠ c!"fitness") (hl : dict'.length = dict.length) (pop : List Chrom) (hp : ∀ c ∈ pop, c.length = dict.length) :
    evaluate cfg b (rows.map (recodeRow σ f)) (f t) dict' (pop.map (recode σ)) = (evaluate cfg a rows t dict pop).map (List.map (recodeInd σ)) := by
  unfold evaluate
  induction pop with
  | nil => rfl
  | cons c pop ih =>
    simp only [List.map_cons, List.mapM_cons, bind, Except.bind, pure, Except.pure] at ih ⊢
    rw [recode_fitness h0 hf h, ih (fun c hc => hp c (by simp [hc]))]
    have hc := hp c (by simp)
    rw [dropFitness_all hn hc, dropFitness_all hn' (by rw [recode_length, hc, hl])]
    cases fitness cfg a rows t c with
    | error e => rfl
    | ok x =>
      simp only
      generalize List.mapM (m := Except PyErr) _ pop = R
      cases R <;> rfl

theorem evaluate_length {dict : List (Str × List Val)} (hn : ∀ e ∈ dict, e.1 ≠ c!"fitness") (pop : List Chrom) (hp : ∀ c ∈ pop, c.length = dict.length) {l : List Ind}
    (hl : evaluate cfg a rows t dict pop = .ok l) : ∀ x ∈ l, x.genes.length = dict.length := by
  unfold evaluate at hl
  induction pop generalizing l with
  | nil => cases hl; simp
  | cons c pop ih =>
    simp only [List.mapM_cons, bind, Except.bind, pure, Except.pure] at ih hl
    cases fc : fitness cfg a rows t c with
    | error e => rw [fc] at hl; cases hl
    | ok x =>
      rw [fc] at hl
      simp only at hl
      generalize List.mapM (m := Except PyErr) _ pop = R at hl ih
      cases R with
      | error e => cases hl
      | ok l' =>
        cases hl
        intro y hy
        rcases List.mem_cons.1 hy with rfl | hy
        · simp only [dropFitness_all hn (hp c (by simp)), hp c (by simp)]
        · exact ih (fun c hc => hp c (by simp [hc])) rfl y hy

/-- the choices have chromosomes of the right length, crossover points inside, and sorts that keep the rows -/
structure Sized (n : Nat) (o : SDIGAChoice) : Prop where
  pop : ∀ c ∈ o.pop, c.length = n
  sort : ∀ l, (o.sort l).Perm l
  gsort : ∀ k l, ((o.gens k).sort l).Perm l
  cross : 2 ≤ n → ∀ k x y, (o.gens k).cross = some (x, y) → x < y ∧ y < n

theorem recode_evolve {dict dict' : List (Str × List Val)} (h0 : ∀ j, σ j 0 = 0) (hf : Function.Injective f) (h : Recoded σ f ren renL a b)
    (hn : ∀ e ∈ dict, e.1 ≠ c!"fitness") (hn' : ∀ e ∈ dict', e.1 ≠ c!"fitness") (hl : dict'.length = dict.length) {o : SDIGAChoice} (ho : Sized dict.length o) :
    evolve cfg b (rows.map (recodeRow σ f)) (f t) dict' (recodeChoice σ o) = (evolve cfg a rows t dict o).map (recodeInd σ) := by
  unfold evolve
  simp only [bind, Except.bind, pure, Except.pure]
  rw [show (recodeChoice σ o).pop = o.pop.map (recode σ) from rfl, recode_evaluate h0 hf h hn hn' hl _ ho.pop]
  cases he : evaluate cfg a rows t dict o.pop with
  | error e => rfl
  | ok pop =>
    have lp := evaluate_length hn _ ho.pop he
    simp only [Except.map]
    have es : (recodeChoice σ o).sort (pop.map (recodeInd σ)) = (o.sort pop).map (recodeInd σ) := by
      simp only [recodeChoice, recodeInd_symm]
    rw [es, show (recodeChoice σ o).gens = fun k => recodeGen σ (o.gens k) from rfl,
      recode_gens h0 hf h o.gens ho.gsort ho.cross _ (fun x hx => lp x ((ho.sort _).mem_iff.1 hx))]
    cases List.foldlM (fun pop k => generation cfg a rows t pop (o.gens k)) (o.sort pop) (List.range cfg.maxGen) with
    | error e => rfl
    | ok last =>
      simp only [Except.map, List.getElem?_map]
      cases last[0]? <;> rfl


/-! ### the outer loop -/
variable {ρ : Str → Str} {ν : Str → Str → Str} {target : Str × Str} {dict dict' : List (Str × List Val)}

/-- the line with other names -/
def _root_.Verif.Spec.renameLine (ρ : Str → Str) (ν : Str → Str → Str) (x : SDIGALine) : SDIGALine := { x with subgroup := renameSubgroup ρ ν x.subgroup }

/-- the dictionaries agree up to the names and the codes -/
structure DictNames (ρ : Str → Str) (ν : Str → Str → Str) (σ : Nat → Nat ≃ Nat) (dict dict' : List (Str × List Val)) : Prop where
  zero : ∀ j, σ j 0 = 0
  length : dict'.length = dict.length
  plain : ∀ e ∈ dict, e.1 ≠ c!"fitness"
  plain' : ∀ e ∈ dict', e.1 ≠ c!"fitness"
  decode : ∀ c, SDIGA.decode dict' (recode σ c) = (SDIGA.decode dict c).map (renamePattern ρ ν)
  text : ∀ c p, SDIGA.decode dict c = .ok p → ∀ s ∈ p.sels, TextEq s

/-- the outcomes agree up to the names and the codes -/
def RecodedTurn (σ : Nat → Nat ≃ Nat) (ρ : Str → Str) (ν : Str → Str → Str) (f : Str → Str) : Except PyErr (SDIGAState × Bool) → Except PyErr (SDIGAState × Bool) → Prop
  | .error e, .error e' => e' = e
  | .ok r, .ok r' => Recoded σ f (renamePattern ρ ν) (renameLine ρ ν) r.1 r'.1 ∧ r'.2 = r.2 ∧ ∀ p ∈ r.1.cases, ∀ s ∈ p.sels, TextEq s
  | _, _ => False

theorem renamePattern_refines (hρ : Function.Injective ρ) (hν : ∀ a, Function.Injective (ν a)) {p q : Pattern} (hp : ∀ s ∈ p.sels, TextEq s) (hq : ∀ s ∈ q.sels, TextEq s) (e : Bool) :
    (renamePattern ρ ν p).isRefinement (renamePattern ρ ν q) e = p.isRefinement q e := by
  have hm : ∀ {u : Pattern}, (∀ s ∈ u.sels, TextEq s) → ∀ x, x ∈ (renamePattern ρ ν u).sels ↔ ∃ y ∈ u.sels, renameSel ρ ν y = x := fun hu x => mem_ren hu x
  have hmem : ∀ {u v : Pattern}, (∀ s ∈ u.sels, TextEq s) → (∀ s ∈ v.sels, TextEq s) → ∀ y ∈ u.sels, (renameSel ρ ν y ∈ (renamePattern ρ ν v).sels ↔ y ∈ v.sels) := by
    intro u v hu hv y hy
    rw [hm hv]
    constructor
    · rintro ⟨z, hz, he⟩
      exact rename_inj hρ hν (hv z hz) (hu y hy) he ▸ hz
    · exact fun hz => ⟨y, hz, rfl⟩
  apply Bool.eq_iff_iff.2
  rw [Pattern.isRefinement_iff, Pattern.isRefinement_iff]
  refine and_congr ?_ (or_congr_left ?_)
  · constructor
    · intro h x hx
      exact (hmem hp hq x hx).1 (h _ ((hm hp _).2 ⟨x, hx, rfl⟩))
    · intro h x hx
      obtain ⟨y, hy, rfl⟩ := (hm hp x).1 hx
      exact (hmem hp hq y hy).2 (h y hy)
  · constructor
    · rintro ⟨x, hx, hn⟩
      obtain ⟨y, hy, rfl⟩ := (hm hq x).1 hx
      exact ⟨y, hy, fun h => hn ((hmem hq hp y hy).2 h)⟩
    · rintro ⟨y, hy, hn⟩
      exact ⟨_, (hm hq _).2 ⟨y, hy, rfl⟩, fun h => hn ((hmem hq hp y hy).1 h)⟩

theorem recode_turn (hρ : Function.Injective ρ) (hν : ∀ a, Function.Injective (ν a)) (hd : DictNames ρ ν σ dict dict')
    (h : Recoded σ (ν target.1) (renamePattern ρ ν) (renameLine ρ ν) a b) (ht : ∀ p ∈ a.cases, ∀ s ∈ p.sels, TextEq s) {o : SDIGAChoice} (ho : Sized dict.length o) :
    RecodedTurn σ ρ ν (ν target.1) (turn cfg rows target dict o a) (turn cfg (rows.map (recodeRow σ (ν target.1))) (renameTarget ρ ν target) dict' (recodeChoice σ o) b) := by
  unfold turn
  simp only [bind, Except.bind, pure, Except.pure]
  rw [show (renameTarget ρ ν target).2 = ν target.1 target.2 from rfl, recode_evolve hd.zero (hν _) h hd.plain hd.plain' hd.length ho]
  cases evolve cfg a rows target.2 dict o with
  | error e => exact rfl
  | ok best =>
    simp only [Except.map]
    have h1 : Recoded σ (ν target.1) (renamePattern ρ ν) (renameLine ρ ν) { a with unselected := a.unselected + 2 * cfg.maxGen + (cfg.popSize - 1) }
        { b with unselected := b.unselected + 2 * cfg.maxGen + (cfg.popSize - 1) } :=
      ⟨h.selected, by simp only [h.unselected], h.file, h.cases, h.unchecked, h.TP, h.FP, h.TPu, h.FPu⟩
    rw [show (recodeInd σ best).genes = recode σ best.genes from rfl, recode_local hd.zero (hν _) h1]
    cases localSearch cfg { a with unselected := a.unselected + 2 * cfg.maxGen + (cfg.popSize - 1) } rows target.2 best.genes with
    | error e => exact rfl
    | ok r =>
      obtain ⟨chrom, conf, fit, tp, fp⟩ := r
      simp only [Except.map]
      rw [chromDict_id hd.plain, chromDict_id hd.plain', hd.decode]
      cases hdec : SDIGA.decode dict chrom with
      | error e => exact rfl
      | ok last =>
        have hlast := hd.text chrom last hdec
        simp only [Except.map]
        have hany : b.cases.any (fun case => case.isRefinement (renamePattern ρ ν last) true) = a.cases.any (fun case => case.isRefinement last true) := by
          rw [h.cases, List.any_map]
          apply Bool.eq_iff_iff.2
          rw [List.any_eq_true, List.any_eq_true]
          refine exists_congr (fun p => and_congr_right (fun hp => ?_))
          rw [Function.comp_apply, renamePattern_refines hρ hν (ht p hp) hlast]
        rw [hany]
        by_cases c1 : a.cases.any (fun case => case.isRefinement last true) = true
        · rw [if_pos c1, if_pos c1]
          exact ⟨h1, rfl, ht⟩
        · rw [if_neg c1, if_neg c1]
          by_cases c2 : conf < cfg.minConf
          · rw [if_pos c2, if_pos c2]
            exact ⟨h1, rfl, ht⟩
          · rw [if_neg c2, if_neg c2]
            refine ⟨⟨by simp only [h.selected], by simp only [h.unselected], ?_, by simp only [h.cases, List.map_append, List.map_cons, List.map_nil], ?_, h.TP, h.FP, ?_, ?_⟩, rfl, ?_⟩
            · simp only [h.file, h.TP, h.FP, h.TPu, h.FPu, h.unchecked, recode_tpFp hd.zero (hν target.1)]
              split
              · rw [List.map_append]; rfl
              · rfl
            · simp only [h.unchecked, recode_without hd.zero]
            · simp only [h.unchecked, recode_without hd.zero, recode_count (hν target.1)]
            · simp only [h.unchecked, recode_without hd.zero, recode_count (hν target.1), List.length_map]
            · intro p hp
              rcases List.mem_append.1 hp with hp | hp
              · exact ht p hp
              · rw [List.mem_singleton.1 hp]; exact hlast

/-- the outcomes of the loop agree up to the names and the codes -/
def RecodedEnd (σ : Nat → Nat ≃ Nat) (ρ : Str → Str) (ν : Str → Str → Str) (f : Str → Str) : Option (Except PyErr SDIGAState) → Option (Except PyErr SDIGAState) → Prop
  | none, none => True
  | some (.error e), some (.error e') => e' = e
  | some (.ok r), some (.ok r') => Recoded σ f (renamePattern ρ ν) (renameLine ρ ν) r r'
  | _, _ => False

theorem recode_loop (hρ : Function.Injective ρ) (hν : ∀ a, Function.Injective (ν a)) (hd : DictNames ρ ν σ dict dict') {o : Nat → SDIGAChoice} (ho : ∀ k, Sized dict.length (o k)) (n k : Nat)
    (a b : SDIGAState) (h : Recoded σ (ν target.1) (renamePattern ρ ν) (renameLine ρ ν) a b) (ht : ∀ p ∈ a.cases, ∀ s ∈ p.sels, TextEq s) :
    RecodedEnd σ ρ ν (ν target.1) (loop cfg rows target dict o n k a)
      (loop cfg (rows.map (recodeRow σ (ν target.1))) (renameTarget ρ ν target) dict' (fun k => recodeChoice σ (o k)) n k b) := by
  induction n generalizing k a b with
  | zero => exact trivial
  | succ n ih =>
    have hh := recode_turn (cfg := cfg) (rows := rows) hρ hν hd h ht (ho k)
    unfold loop
    cases h1 : turn cfg rows target dict (o k) a with
    | error e =>
      rw [h1] at hh
      cases h2 : turn cfg (rows.map (recodeRow σ (ν target.1))) (renameTarget ρ ν target) dict' (recodeChoice σ (o k)) b with
      | error e' => rw [h2] at hh; exact hh
      | ok r => rw [h2] at hh; exact hh.elim
    | ok r =>
      rw [h1] at hh
      cases h2 : turn cfg (rows.map (recodeRow σ (ν target.1))) (renameTarget ρ ν target) dict' (recodeChoice σ (o k)) b with
      | error e' => rw [h2] at hh; exact hh.elim
      | ok r' =>
        rw [h2] at hh
        obtain ⟨s, g⟩ := r
        obtain ⟨s', g'⟩ := r'
        obtain ⟨h3, h4, h5⟩ := hh
        simp only at h3 h4 h5
        subst h4
        cases g' with
        | true => exact ih _ _ _ h3 h5
        | false => exact h3

end

/-! ### the codes -/

/-- position `g` of the list `A` to the position of the same element in the list `B`, counted from 1; 0 and the other numbers stay -/
def codeMap (A B : List Val) : Nat → Nat
  | 0 => 0
  | g + 1 => match A[g]? with
    | some w => B.idxOf w + 1
    | none => g + 1

theorem codeMap_inv {A B : List Val} (hA : A.Nodup) (hp : A.Perm B) (g : Nat) : codeMap B A (codeMap A B g) = g := by
  cases g with
  | zero => rfl
  | succ g =>
    simp only [codeMap]
    cases hg : A[g]? with
    | none =>
      simp only
      have : B[g]? = none := by
        rw [List.getElem?_eq_none_iff] at hg ⊢
        rw [← hp.length_eq]; exact hg
      simp only [codeMap, this]
    | some w =>
      have hw : w ∈ B := hp.mem_iff.1 (List.mem_of_getElem? hg)
      have e : B[B.idxOf w]? = some w := by
        rw [List.getElem?_eq_getElem (List.idxOf_lt_length_of_mem hw), List.getElem_idxOf]
      simp only [codeMap, e]
      obtain ⟨hlt, hg'⟩ := List.getElem?_eq_some_iff.1 hg
      rw [← hg', hA.idxOf_getElem g hlt]

open Classical in
/-- the change of codes between two lists with the same elements -/
noncomputable def codePerm (A B : List Val) : Nat ≃ Nat :=
  if h : A.Nodup ∧ B.Nodup ∧ A.Perm B then ⟨codeMap A B, codeMap B A, codeMap_inv h.1 h.2.2, codeMap_inv h.2.1 h.2.2.symm⟩ else Equiv.refl Nat

theorem codePerm_apply {A B : List Val} (hA : A.Nodup) (hB : B.Nodup) (hp : A.Perm B) (g : Nat) : codePerm A B g = codeMap A B g := by
  unfold codePerm
  rw [dif_pos ⟨hA, hB, hp⟩]
  rfl

theorem codePerm_zero (A B : List Val) : codePerm A B 0 = 0 := by
  unfold codePerm
  split <;> rfl

theorem codeMap_le {A B : List Val} (hp : A.Perm B) {g : Nat} (hg : g ≤ A.length) : codeMap A B g ≤ B.length := by
  cases g with
  | zero => simp [codeMap]
  | succ g =>
    simp only [codeMap]
    rw [List.getElem?_eq_getElem (by omega)]
    exact List.idxOf_lt_length_of_mem (hp.mem_iff.1 (List.getElem_mem _))

variable {ρ : Str → Str} {ν : Str → Str → Str} {df : Frame} {target : Str × Str}

/-- a column with other names -/
def renameCol (ρ : Str → Str) (ν : Str → Str → Str) (c : Str × List Val) : Str × List Val := (ρ c.1, c.2.map (renameVal (ν c.1)))

theorem otherCols_rename (hρ : Function.Injective ρ) (t : Str) : otherCols (renameFrame ρ ν df) (ρ t) = (otherCols df t).map (renameCol ρ ν) := by
  unfold otherCols renameFrame
  simp only [List.filter_map]
  congr 1
  apply List.filter_congr
  intro c _
  simp only [Function.comp_apply, ne_eq, hρ.eq_iff]

/-- the values of a column in the order of the old names, with their new names -/
def oldKeys (ν : Str → Str → Str) (c : Str × List Val) : List Val := (groupKeys c.2).map (renameVal (ν c.1))

/-- the values of a column in the order of the new names -/
def newKeys (ν : Str → Str → Str) (c : Str × List Val) : List Val := groupKeys (c.2.map (renameVal (ν c.1)))

theorem newKeys_nodup (c : Str × List Val) : (newKeys ν c).Nodup := groupKeys_nodup _

theorem keys_nodup (hν : ∀ a, Function.Injective (ν a)) {c : Str × List Val} (hc : ∀ v ∈ c.2, ∃ s, v = .str s) : (oldKeys ν c).Nodup := by
  unfold oldKeys
  refine (List.nodup_map_iff_inj_on (groupKeys_nodup _)).2 (fun x hx y hy h => ?_)
  exact renameVal_inj (hν c.1) hc x ((mem_groupKeys _ _).1 hx) y ((mem_groupKeys _ _).1 hy) h

theorem keys_perm (hν : ∀ a, Function.Injective (ν a)) {c : Str × List Val} (hc : ∀ v ∈ c.2, ∃ s, v = .str s) : (oldKeys ν c).Perm (newKeys ν c) := by
  refine (List.perm_ext_iff_of_nodup (keys_nodup hν hc) (groupKeys_nodup _)).2 (fun v => ?_)
  unfold oldKeys
  simp only [List.mem_map, mem_groupKeys]

/-- the code of every attribute changed from the order of the old names to that of the new ones -/
noncomputable def nameCodes (ν : Str → Str → Str) (cols : List (Str × List Val)) (j : Nat) : Nat ≃ Nat :=
  match cols[j]? with
  | some c => codePerm (oldKeys ν c) (newKeys ν c)
  | none => Equiv.refl Nat

theorem nameCodes_zero (cols : List (Str × List Val)) (j : Nat) : nameCodes ν cols j 0 = 0 := by
  unfold nameCodes
  split
  · exact codePerm_zero _ _
  · rfl

/-- what a gene says is said by the changed gene with the new names -/
def GeneNames (ρ : Str → Str) (ν : Str → Str → Str) (τ : Nat ≃ Nat) (c : Str × List Val) : Prop :=
  ∀ g, decodeGene ((ρ c.1, newKeys ν c), τ g) = (decodeGene ((c.1, groupKeys c.2), g)).map (List.map (renameSel ρ ν))

theorem geneNames_perm (hν : ∀ a, Function.Injective (ν a)) {c : Str × List Val} (hc : ∀ v ∈ c.2, ∃ s, v = .str s) : GeneNames ρ ν (codePerm (oldKeys ν c) (newKeys ν c)) c := by
  intro g
  rw [codePerm_apply (keys_nodup hν hc) (newKeys_nodup c) (keys_perm hν hc)]
  unfold decodeGene
  cases g with
  | zero => rfl
  | succ g =>
    have e0 : (oldKeys ν c)[g]? = (groupKeys c.2)[g]?.map (renameVal (ν c.1)) := by simp [oldKeys]
    simp only [codeMap, e0]
    cases hg : (groupKeys c.2)[g]? with
    | none =>
      have : (newKeys ν c)[g]? = none := by
        rw [List.getElem?_eq_none_iff, ← (keys_perm hν hc).length_eq, ← List.getElem?_eq_none_iff, e0, hg]; rfl
      simp [this, hg, Except.map]
    | some v =>
      have hm : renameVal (ν c.1) v ∈ newKeys ν c := (keys_perm hν hc).mem_iff.1 (List.mem_map_of_mem (List.mem_of_getElem? hg))
      have e : (newKeys ν c)[(newKeys ν c).idxOf (renameVal (ν c.1) v)]? = some (renameVal (ν c.1) v) := by
        rw [List.getElem?_eq_getElem (List.idxOf_lt_length_of_mem hm), List.getElem_idxOf]
      simp [e, hg, Except.map, renameSel]

theorem mapM_names {σ : Nat → Nat ≃ Nat} {cols : List (Str × List Val)} (h : ∀ j c, cols[j]? = some c → GeneNames ρ ν (σ j) c) (c : Chrom) :
    ((cols.map (fun c => (ρ c.1, newKeys ν c))).zip (recode σ c)).mapM decodeGene =
      (((cols.map (fun c => (c.1, groupKeys c.2))).zip c).mapM decodeGene).map (List.map (List.map (renameSel ρ ν))) := by
  induction cols generalizing σ c with
  | nil => rfl
  | cons x cols ih =>
    cases c with
    | nil => rfl
    | cons g c =>
      have hx := h 0 x rfl g
      have ihh := ih (σ := fun j => σ (j + 1)) (fun j c hc => h (j + 1) c hc) c
      simp only [recode, List.mapIdx_cons, List.map_cons, List.zip_cons_cons, List.mapM_cons, bind, Except.bind, pure, Except.pure] at ihh ⊢
      rw [hx, ihh]
      cases decodeGene ((x.1, groupKeys x.2), g) with
      | error e => rfl
      | ok l =>
        simp only [Except.map]
        cases List.mapM decodeGene ((cols.map (fun c => (c.1, groupKeys c.2))).zip c) <;> rfl

theorem mapM_texts {cols : List (Str × List Val)} (h : ∀ c ∈ cols, ∀ v ∈ c.2, ∃ s, v = .str s) (c : Chrom) {l : List (List Selector)}
    (hl : ((cols.map (fun c => (c.1, groupKeys c.2))).zip c).mapM decodeGene = .ok l) : ∀ s ∈ l.flatten, TextEq s := by
  induction cols generalizing c l with
  | nil => cases hl; simp
  | cons x cols ih =>
    cases c with
    | nil => cases hl; simp
    | cons g c =>
      simp only [List.map_cons, List.zip_cons_cons, List.mapM_cons, bind, Except.bind, pure, Except.pure] at hl
      cases h1 : decodeGene ((x.1, groupKeys x.2), g) with
      | error e => rw [h1] at hl; cases hl
      | ok y =>
        rw [h1] at hl
        simp only at hl
        cases h2 : List.mapM decodeGene ((cols.map (fun c => (c.1, groupKeys c.2))).zip c) with
        | error e => rw [h2] at hl; cases hl
        | ok l' =>
          rw [h2] at hl
          cases hl
          intro s hs
          rw [List.flatten_cons, List.mem_append] at hs
          rcases hs with hs | hs
          · unfold decodeGene at h1
            split at h1
            · cases hv : (groupKeys x.2)[g - 1]? with
              | none => simp only [hv] at h1; cases h1
              | some v =>
                simp only [hv] at h1
                cases h1
                obtain ⟨w, rfl⟩ := h x (by simp) v ((mem_groupKeys _ _).1 (List.mem_of_getElem? hv))
                rw [List.mem_singleton.1 hs]
                exact ⟨rfl, w, rfl⟩
            · cases h1; cases hs
          · exact ih (fun c hc => h c (by simp [hc])) c h2 s hs

theorem new_rename {X : List Selector} (hX : ∀ s ∈ X, TextEq s) : Pattern.new (X.map (renameSel ρ ν)) = renamePattern ρ ν (Pattern.new X) := by
  have h1 := new_text hX
  have hn : ∀ s ∈ (Pattern.new X).sels, TextEq s := fun s hs => hX s ((h1.2 s).1 hs)
  have hm : ∀ Y : List Selector, (∀ s ∈ Y, TextEq s) → ∀ s ∈ Y.map (renameSel ρ ν), TextEq s := by
    intro Y hY s hs
    obtain ⟨u, hu, rfl⟩ := List.mem_map.1 hs
    exact (hY u hu).rename
  unfold renamePattern
  have a := new_text (hm _ hX)
  have b := new_text (hm _ hn)
  have : (Pattern.new (X.map (renameSel ρ ν))).sels = (Pattern.new ((Pattern.new X).sels.map (renameSel ρ ν))).sels := by
    refine sorted_ext a.1 b.1 (fun s hs => hm _ hX s ((a.2 s).1 hs)) (fun s => ?_)
    rw [a.2, b.2, List.mem_map, List.mem_map]
    refine exists_congr (fun u => and_congr_left (fun _ => (h1.2 u).symm))
  cases hx : Pattern.new (X.map (renameSel ρ ν)) with
  | mk l => cases hy : Pattern.new ((Pattern.new X).sels.map (renameSel ρ ν)) with
    | mk m => rw [hx, hy] at this; simp only at this; rw [this]

theorem dictNames {σ : Nat → Nat ≃ Nat} (hρ : Function.Injective ρ) (hf : NominalFrame df target) (h0 : ∀ j, σ j 0 = 0)
    (hg : ∀ j c, (otherCols df target.1)[j]? = some c → GeneNames ρ ν (σ j) c)
    (hn : ∀ c ∈ df.cols, c.1 ≠ target.1 → c.1 ≠ c!"fitness") (hn' : ∀ c ∈ df.cols, c.1 ≠ target.1 → ρ c.1 ≠ c!"fitness") :
    DictNames ρ ν σ (encodeDict df target.1) (encodeDict (renameFrame ρ ν df) (ρ target.1)) := by
  have e' : encodeDict (renameFrame ρ ν df) (ρ target.1) = (otherCols df target.1).map (fun c => (ρ c.1, newKeys ν c)) := by
    unfold encodeDict
    rw [otherCols_rename hρ, List.map_map]
    rfl
  have hmem : ∀ c ∈ otherCols df target.1, c ∈ df.cols ∧ c.1 ≠ target.1 := by
    intro c hc
    unfold otherCols at hc
    rw [List.mem_filter] at hc
    exact ⟨hc.1, by simpa using hc.2⟩
  refine ⟨h0, by rw [e']; simp [encodeDict], ?_, ?_, fun c => ?_, fun c p hp => ?_⟩
  · intro e he
    obtain ⟨c, hc, rfl⟩ := List.mem_map.1 he
    exact hn c (hmem c hc).1 (hmem c hc).2
  · intro e he
    rw [e'] at he
    obtain ⟨c, hc, rfl⟩ := List.mem_map.1 he
    exact hn' c (hmem c hc).1 (hmem c hc).2
  · rw [e']
    unfold SDIGA.decode
    rw [mapM_names hg]
    unfold encodeDict
    cases hl : List.mapM decodeGene (((otherCols df target.1).map (fun c => (c.1, groupKeys c.2))).zip c) with
    | error e => rfl
    | ok l =>
      simp only [Except.map]
      rw [← new_rename (mapM_texts (fun c hc => hf.texts c (hmem c hc).1) c hl), List.map_flatten]
  · unfold SDIGA.decode encodeDict at hp
    cases hl : List.mapM decodeGene (((otherCols df target.1).map (fun c => (c.1, groupKeys c.2))).zip c) with
    | error e => rw [hl] at hp; cases hp
    | ok l =>
      rw [hl] at hp
      cases hp
      have ht := mapM_texts (fun c hc => hf.texts c (hmem c hc).1) c hl
      exact fun s hs => ht s (((new_text ht).2 s).1 hs)

/-- the codes of the cells change as the genes -/
def CellCodes (ν : Str → Str → Str) (τ : Nat ≃ Nat) (c : Str × List Val) : Prop := ∀ v ∈ c.2, code (newKeys ν c) (renameVal (ν c.1) v) = τ (code (groupKeys c.2) v)

theorem groupKeys_len (col : List Val) : (groupKeys col).length = col.dedup.length := (stableSort_perm _).length_eq

theorem cellCodes_perm (hν : ∀ a, Function.Injective (ν a)) {c : Str × List Val} (hc : ∀ v ∈ c.2, ∃ s, v = .str s) (hs : c.2.dedup.length ≤ 65535) :
    CellCodes ν (codePerm (oldKeys ν c) (newKeys ν c)) c := by
  intro v hv
  rw [codePerm_apply (keys_nodup hν hc) (newKeys_nodup c) (keys_perm hν hc)]
  have hm : v ∈ groupKeys c.2 := (mem_groupKeys _ _).2 hv
  have hi := List.idxOf_lt_length_of_mem hm
  have hi' : (newKeys ν c).idxOf (renameVal (ν c.1) v) < (newKeys ν c).length := List.idxOf_lt_length_of_mem ((keys_perm hν hc).mem_iff.1 (List.mem_map_of_mem hm))
  have hl : (newKeys ν c).length = (groupKeys c.2).length := by rw [← (keys_perm hν hc).length_eq]; simp [oldKeys]
  have hk := groupKeys_len c.2
  unfold code
  rw [Nat.mod_eq_of_lt (show (groupKeys c.2).idxOf v + 1 < 65536 by omega), Nat.mod_eq_of_lt (show (newKeys ν c).idxOf (renameVal (ν c.1) v) + 1 < 65536 by omega)]
  have e : (oldKeys ν c)[(groupKeys c.2).idxOf v]? = some (renameVal (ν c.1) v) := by
    simp only [oldKeys, List.getElem?_map, List.getElem?_eq_getElem hi, List.getElem_idxOf, Option.map_some]
  simp only [codeMap, e]

theorem rows_rename {σ : Nat → Nat ≃ Nat} (hρ : Function.Injective ρ) (hf : NominalFrame df target) (hc : ∀ j c, (otherCols df target.1)[j]? = some c → CellCodes ν (σ j) c)
    {tcol : List Val} (ht : tcol.length = df.nrows) :
    encodeRows (renameFrame ρ ν df) (ρ target.1) (tcol.map (renameVal (ν target.1))) = (encodeRows df target.1 tcol).map (recodeRow σ (ν target.1)) := by
  unfold encodeRows
  rw [otherCols_rename hρ, List.map_map]
  show (List.range df.nrows).map _ = _
  apply List.map_congr_left
  intro i hi
  rw [List.mem_range] at hi
  simp only [Function.comp_apply, recodeRow, ERow.mk.injEq, true_and]
  refine ⟨?_, ?_⟩
  · apply List.ext_getElem?
    intro j
    rw [recode_get]
    simp only [List.getElem?_map]
    cases hj : (otherCols df target.1)[j]? with
    | none => rfl
    | some c =>
      have hcm : c ∈ df.cols := (List.mem_filter.1 (List.mem_of_getElem? hj)).1
      have hl : i < c.2.length := by rw [hf.wf c hcm]; exact hi
      simp only [Option.map_some, renameCol, List.getElem?_map, List.getElem?_eq_getElem hl, Option.getD_some]
      rw [← hc j c hj _ (List.getElem_mem hl)]
      rfl
  · have hl : i < tcol.length := by omega
    simp only [List.getElem?_map, List.getElem?_eq_getElem hl, Option.map_some, Option.getD_some]

theorem fit_rename {σ : Nat → Nat ≃ Nat} (hρ : Function.Injective ρ) (hν : ∀ a, Function.Injective (ν a)) (hf : NominalFrame df target)
    (hd : DictNames ρ ν σ (encodeDict df target.1) (encodeDict (renameFrame ρ ν df) (ρ target.1)))
    (hc : ∀ j c, (otherCols df target.1)[j]? = some c → CellCodes ν (σ j) c) {cfg : SDIGAConfig} {o : Nat → SDIGAChoice} (ho : ∀ k, Sized (encodeDict df target.1).length (o k)) (fuel : Nat)
    (st : SDIGAState) (hst : st.file = []) :
    RecodedEnd σ ρ ν (ν target.1) (SDIGA.fit cfg o fuel st df target) (SDIGA.fit cfg (fun k => recodeChoice σ (o k)) fuel st (renameFrame ρ ν df) (renameTarget ρ ν target)) := by
  obtain ⟨tcol, hl⟩ := lookup_of_name hf.target
  have hl' : (renameFrame ρ ν df).cols.lookup (renameTarget ρ ν target).1 = some (tcol.map (renameVal (ν target.1))) := by
    have : (renameFrame ρ ν df).cols.lookup (renameTarget ρ ν target).1 = (df.cols.lookup target.1).map (fun col => col.map (renameVal (ν target.1))) := lookup_rename hρ _ _
    rw [this, hl]; rfl
  have htl : tcol.length = df.nrows := hf.wf _ (mem_of_lookup hl)
  unfold SDIGA.fit Frame.col
  rw [nominal_true hf, nominal_true (relabel_nominal (renameFrame_relabelled hρ hν hf) hf), hl, hl']
  simp only [Bool.not_true, Bool.false_eq_true, if_false]
  have hcnt : (tcol.map (renameVal (ν target.1))).countP (fun v => v.eq (.str (renameTarget ρ ν target).2)) = tcol.countP (fun v => v.eq (.str target.2)) := by
    rw [List.countP_map]
    exact List.countP_congr (fun v _ => by simp only [Function.comp_apply, renameTarget, rename_eq (hν target.1)])
  have hany : (tcol.map (renameVal (ν target.1))).any (fun v => v.eq (.str (renameTarget ρ ν target).2)) = tcol.any (fun v => v.eq (.str target.2)) := by
    rw [List.any_map]
    congr 1
    funext v
    simp only [Function.comp_apply, renameTarget, rename_eq (hν target.1)]
  rw [hany, hcnt, show (renameFrame ρ ν df).nrows = df.nrows from rfl, show (renameTarget ρ ν target).1 = ρ target.1 from rfl, rows_rename hρ hf hc htl]
  split
  · exact rfl
  · refine recode_loop hρ hν hd ho fuel 0 _ _ ⟨rfl, rfl, ?_, rfl, rfl, rfl, rfl, rfl, rfl⟩ (by simp)
    simp only [hst, ite_self, List.map_nil]

end SDIGA
end Verif

import Verif.Model.SDIGARandom
import Verif.Props.SDIGA
/-! Property C96: the random draws of SDIGA. -/
namespace Verif
open Spec SDIGA

/-- what `numpy.random` promises: `rand()` is at least 0 and less than 1; `randint(0, n)` and `choice(range(n))` are less than `n`; `choice(range(n), 2, replace=False)` gives two different numbers
less than `n` -/
structure Spec.LawfulGen {σ : Type} (g : RandGen σ) : Prop where
  rand : ∀ s, 0 ≤ (g.rand s).1 ∧ (g.rand s).1 < 1
  below : ∀ n s, 0 < n → (g.below n s).1 < n
  two : ∀ n s, 2 ≤ n → (g.two n s).1.1 < n ∧ (g.two n s).1.2 < n ∧ (g.two n s).1.1 ≠ (g.two n s).1.2

section
variable {σ : Type} {g : RandGen σ} {df : Frame} {target : Str × Str} {cfg : SDIGAConfig}

theorem dict_chrom {tname : Str} {c : Chrom} : IsChrom df tname c ↔ List.Forall₂ (fun (e : Str × List Val) x => x ≤ e.2.length) (encodeDict df tname) c := by
  unfold encodeDict
  rw [List.forall₂_map_left_iff]
  simp only [groupKeys_length]
  exact isChrom_iff

theorem drawChrom_ok (hg : LawfulGen g) (dict : List (Str × List Val)) (s : σ) : List.Forall₂ (fun (e : Str × List Val) x => x ≤ e.2.length) dict (drawChrom g dict s).1 := by
  induction dict generalizing s with
  | nil => exact .nil
  | cons e dict ih =>
    simp only [drawChrom]
    have := hg.below (e.2.length + 1) s (by omega)
    exact .cons (by omega) (ih _)

theorem drawPop_ok (hg : LawfulGen g) (dict : List (Str × List Val)) (n : Nat) (s : σ) :
    (drawPop g dict n s).1.length = n ∧ ∀ c ∈ (drawPop g dict n s).1, List.Forall₂ (fun (e : Str × List Val) x => x ≤ e.2.length) dict c := by
  induction n generalizing s with
  | zero => simp [drawPop]
  | succ n ih =>
    simp only [drawPop]
    obtain ⟨h1, h2⟩ := ih (drawChrom g dict s).2
    refine ⟨by simp [h1], fun c hc => ?_⟩
    rcases List.mem_cons.1 hc with rfl | hc
    · exact drawChrom_ok hg dict s
    · exact h2 c hc

theorem drawCross_ok (hg : LawfulGen g) {len : Nat} (h2 : 2 ≤ len) (s : σ) (a b : Nat) (h : (drawCross g cfg len s).1 = some (a, b)) : a < b ∧ b < len := by
  unfold drawCross at h
  simp only at h
  split at h
  · obtain ⟨x, y, z⟩ := hg.two len (g.rand s).2 h2
    simp only [Option.some.injEq, Prod.mk.injEq] at h
    omega
  · cases h

theorem drawMut_ok (hg : LawfulGen g) {cd : List (Str × List Val)} (hne : cd ≠ []) (hv : ∀ e ∈ cd, e.2 ≠ []) (s : σ) (i x : Nat) (h : (drawMut g cfg cd s).1 = some (i, x)) :
    ∃ e, cd[i]? = some e ∧ x ≤ e.2.length := by
  unfold drawMut at h
  simp only at h
  have hlen : 0 < cd.length := List.length_pos_iff.2 hne
  split at h
  · have hi := hg.below cd.length (g.rand s).2 hlen
    split at h
    · simp only [Option.some.injEq, Prod.mk.injEq] at h
      refine ⟨cd[(g.below cd.length (g.rand s).2).1], ?_, by omega⟩
      rw [← h.1, List.getElem?_eq_getElem hi]
    · simp only [Option.some.injEq, Prod.mk.injEq] at h
      refine ⟨cd[(g.below cd.length (g.rand s).2).1], by rw [← h.1, List.getElem?_eq_getElem hi], ?_⟩
      have e : cd.getD (g.below cd.length (g.rand s).2).1 ([], []) = cd[(g.below cd.length (g.rand s).2).1] := by
        rw [List.getD_eq_getElem?_getD, List.getElem?_eq_getElem hi]; rfl
      rw [e] at h
      have hp : 0 < cd[(g.below cd.length (g.rand s).2).1].2.length := List.length_pos_iff.2 (hv _ (List.getElem_mem hi))
      have := hg.below _ (g.rand (g.below cd.length (g.rand s).2).2).2 hp
      omega
  · cases h

theorem chromDict_all (hf : SDIGAFrame df target) : chromDict (encodeDict df target.1) = encodeDict df target.1 := by
  unfold chromDict
  rw [List.filter_eq_self]
  intro e he
  obtain ⟨c, hc, rfl⟩ := List.mem_map.1 he
  obtain ⟨h1, h2⟩ := (mem_otherCols c).1 hc
  simpa using hf.noFitness c h1 h2

theorem mutation_of (hf : SDIGAFrame df target) {m : Option (Nat × Nat)} (h : ∀ i x, m = some (i, x) → ∃ e, (encodeDict df target.1)[i]? = some e ∧ x ≤ e.2.length) : IsMutation df target.1 m := by
  intro i x hm
  obtain ⟨e, h1, h2⟩ := h i x hm
  unfold encodeDict at h1
  rw [List.getElem?_map, Option.map_eq_some_iff] at h1
  obtain ⟨c, h3, rfl⟩ := h1
  refine ⟨c, h3, ?_⟩
  simpa [groupKeys_length] using h2

/-- C96: whatever a generator that keeps the promises of `numpy.random` draws, the choices of every turn are possible ones: as many chromosomes as asked for, each with one gene per attribute between 0 and the number
of values of the attribute; crossover points `a < b` within the chromosome; mutated genes within the values of their attribute. -/
theorem C96_possible (hg : LawfulGen g) (hf : SDIGAFrame df target) (hocc : ∃ i, MatchesAt df (targetSel target) i) (hattrs : ∃ c ∈ df.cols, c.1 ≠ target.1)
    (sort : Nat → Nat → List Ind → List Ind) (hs : ∀ k j, BestFirst (sort k j)) (s : σ) (k : Nat) :
    Possible cfg df target.1 (turnChoice g cfg (encodeDict df target.1) (sort k) (loopState g cfg (encodeDict df target.1) k s)) := by
  generalize loopState g cfg (encodeDict df target.1) k s = s'
  obtain ⟨p1, p2⟩ := drawPop_ok hg (encodeDict df target.1) cfg.popSize s'
  have hlen : (encodeDict df target.1).length = (df.cols.filter (fun e => e.1 ≠ target.1)).length := by
    unfold encodeDict; rw [List.length_map]; rfl
  have hrows : 0 < df.nrows := by
    obtain ⟨i, col, v, m1, m2, _⟩ := hocc
    have := hf.nominal.wf _ (mem_of_lookup m1)
    have h3 := (List.getElem?_eq_some_iff.1 m2).1
    simp only at this
    omega
  have hv : ∀ e ∈ encodeDict df target.1, e.2 ≠ [] := by
    intro e he
    obtain ⟨c, hc, rfl⟩ := List.mem_map.1 he
    have h1 := hf.nominal.wf c ((mem_otherCols c).1 hc).1
    intro h0
    have hmem : c.2[0]'(by omega) ∈ groupKeys c.2 := (mem_groupKeys c.2 _).2 (List.getElem_mem _)
    simp only at h0
    rw [h0] at hmem
    cases hmem
  have hne : encodeDict df target.1 ≠ [] := by
    obtain ⟨c, h1, h2⟩ := hattrs
    intro h0
    have : (c.1, groupKeys c.2) ∈ encodeDict df target.1 := List.mem_map.2 ⟨c, (mem_otherCols c).2 ⟨h1, h2⟩, rfl⟩
    rw [h0] at this
    cases this
  refine ⟨p1, fun c hc => dict_chrom.2 (p2 c hc), hs k 0, ?_, ?_, ?_, fun j => hs k (j + 1)⟩
  · intro h2 j a b h
    simp only [turnChoice, drawGen] at h
    rw [chromDict_all hf] at h
    rw [← hlen] at h2 ⊢
    exact drawCross_ok hg h2 _ a b h
  · intro j
    simp only [turnChoice, drawGen]
    rw [chromDict_all hf]
    exact mutation_of hf (fun i x h => drawMut_ok hg hne hv _ i x h)
  · intro j
    simp only [turnChoice, drawGen]
    rw [chromDict_all hf]
    exact mutation_of hf (fun i x h => drawMut_ok hg hne hv _ i x h)

/-- C96, with C43: for every such generator and every state of it `fit` stops, after at most as many turns as there are rules plus one, and returns rules with enough confidence, pairwise different, none refined by a
later one. -/
theorem C96_results (hg : LawfulGen g) (hb : SDIGABuilt cfg) (hw : 0 < cfg.supW + cfg.confW) (h2 : 2 ≤ cfg.popSize) (hf : SDIGAFrame df target)
    (hocc : ∃ i, MatchesAt df (targetSel target) i) (hattrs : 2 ≤ (df.cols.filter (fun e => e.1 ≠ target.1)).length)
    (sort : Nat → Nat → List Ind → List Ind) (hs : ∀ k j, BestFirst (sort k j)) (s : σ) (st : SDIGAState) :
    ∃ st', (∀ fuel, ruleCount df target.1 < fuel → fitRandom g cfg sort fuel s st df target = some (.ok st')) ∧
      st'.cases.length ≤ ruleCount df target.1 ∧
      (∀ p ∈ st'.cases, IsRule df target p.sels ∧ cfg.minConf ≤ confOf df target p.sels) ∧
      st'.cases.Pairwise (fun p q => p ≠ q ∧ p.isRefinement q true = false) := by
  have hne : ∃ c ∈ df.cols, c.1 ≠ target.1 := by
    obtain ⟨c, hc⟩ := List.exists_mem_of_length_pos (show 0 < (df.cols.filter (fun e => e.1 ≠ target.1)).length by omega)
    rw [List.mem_filter] at hc
    exact ⟨c, hc.1, by simpa using hc.2⟩
  obtain ⟨st', a, b, c, d, _⟩ := C43_results ⟨hb, hw, h2, hf, hocc, hattrs, fun k => C96_possible (cfg := cfg) hg hf hocc hne sort hs s k⟩ st
  exact ⟨st', a, b, c, d⟩

/-! ### every possible choice can be drawn -/

/-- an answer of the generator of the proof -/
inductive Draw
  | r (q : Rat)
  | n (k : Nat)
  | p (a b : Nat)

/-- a generator that gives prescribed answers, as long as they are in range -/
def scripted : RandGen (List Draw) where
  rand := fun s => match s with
    | .r q :: s => if 0 ≤ q ∧ q < 1 then (q, s) else (0, s)
    | s => (0, s)
  below := fun n s => match s with
    | .n k :: s => if k < n then (k, s) else (0, s)
    | s => (0, s)
  two := fun n s => match s with
    | .p a b :: s => if a < n ∧ b < n ∧ a ≠ b then ((a, b), s) else ((0, 1), s)
    | s => ((0, 1), s)

theorem scripted_lawful : LawfulGen scripted := by
  refine ⟨fun s => ?_, fun n s hn => ?_, fun n s hn => ?_⟩
  · simp only [scripted]
    split
    · split
      · rename_i h; exact h
      · norm_num
    · norm_num
  · simp only [scripted]
    split
    · split
      · rename_i h; exact h
      · exact hn
    · exact hn
  · simp only [scripted]
    split
    · split
      · rename_i h; exact h
      · refine ⟨?_, ?_, ?_⟩ <;> simp <;> omega
    · refine ⟨?_, ?_, ?_⟩ <;> simp <;> omega

theorem scripted_chrom {dict : List (Str × List Val)} {c : Chrom} (h : List.Forall₂ (fun (e : Str × List Val) x => x ≤ e.2.length) dict c) (s : List Draw) :
    drawChrom scripted dict (c.map .n ++ s) = (c, s) := by
  induction h with
  | nil => rfl
  | @cons e x dict c he _ ih =>
    have hb : scripted.below (e.2.length + 1) (.n x :: (c.map .n ++ s)) = (x, c.map .n ++ s) := by
      simp only [scripted]; rw [if_pos (by omega)]
    simp only [List.map_cons, List.cons_append, drawChrom, hb, ih]

def popScript (pop : List Chrom) : List Draw := pop.flatMap (fun c => c.map .n)

theorem scripted_pop {dict : List (Str × List Val)} (pop : List Chrom) (h : ∀ c ∈ pop, List.Forall₂ (fun (e : Str × List Val) x => x ≤ e.2.length) dict c) (s : List Draw) :
    drawPop scripted dict pop.length (popScript pop ++ s) = (pop, s) := by
  induction pop with
  | nil => rfl
  | cons c pop ih =>
    have e : popScript (c :: pop) ++ s = c.map .n ++ (popScript pop ++ s) := by simp [popScript]
    rw [List.length_cons, e]
    simp only [drawPop, scripted_chrom (h c (by simp)), ih (fun d hd => h d (by simp [hd]))]

def crossScript (cfg : SDIGAConfig) : Option (Nat × Nat) → List Draw
  | none => [.r cfg.crossProb]
  | some (a, b) => [.r 0, .p a b]

def mutScript (cfg : SDIGAConfig) : Option (Nat × Nat) → List Draw
  | none => [.r cfg.mutProb]
  | some (i, 0) => [.r 0, .n i, .r 0]
  | some (i, x + 1) => [.r 0, .n i, .r (1 / 2), .n x]

theorem rand_script {q : Rat} (h : 0 ≤ q ∧ q < 1) (s : List Draw) : scripted.rand (.r q :: s) = (q, s) := by simp only [scripted]; rw [if_pos h]
theorem below_script {k n : Nat} (h : k < n) (s : List Draw) : scripted.below n (.n k :: s) = (k, s) := by simp only [scripted]; rw [if_pos h]
theorem two_script {a b n : Nat} (h : a < n ∧ b < n ∧ a ≠ b) (s : List Draw) : scripted.two n (.p a b :: s) = ((a, b), s) := by simp only [scripted]; rw [if_pos h]

/-- both probabilities are strictly between 0 and 1 -/
def ProbOk (cfg : SDIGAConfig) : Prop := (0 < cfg.crossProb ∧ cfg.crossProb < 1) ∧ (0 < cfg.mutProb ∧ cfg.mutProb < 1)

theorem scripted_cross (hc : ProbOk cfg) {len : Nat} (x : Option (Nat × Nat)) (h : ∀ a b, x = some (a, b) → a < b ∧ b < len) (s : List Draw) :
    drawCross scripted cfg len (crossScript cfg x ++ s) = (x, s) := by
  unfold drawCross
  cases x with
  | none =>
    simp only [crossScript, List.cons_append, List.nil_append, rand_script (q := cfg.crossProb) ⟨le_of_lt hc.1.1, hc.1.2⟩]
    rw [if_neg (lt_irrefl _)]
  | some ab =>
    obtain ⟨a, b⟩ := ab
    obtain ⟨h1, h2⟩ := h a b rfl
    simp only [crossScript, List.cons_append, List.nil_append, rand_script (q := 0) ⟨le_refl _, by norm_num⟩]
    rw [if_pos hc.1.1]
    simp only [two_script (a := a) (b := b) (n := len) ⟨by omega, h2, by omega⟩]
    rw [min_eq_left (le_of_lt h1), max_eq_right (le_of_lt h1)]

theorem scripted_mut (hc : ProbOk cfg) {cd : List (Str × List Val)} (x : Option (Nat × Nat)) (h : ∀ i v, x = some (i, v) → ∃ e, cd[i]? = some e ∧ v ≤ e.2.length) (s : List Draw) :
    drawMut scripted cfg cd (mutScript cfg x ++ s) = (x, s) := by
  unfold drawMut
  cases x with
  | none =>
    simp only [mutScript, List.cons_append, List.nil_append, rand_script (q := cfg.mutProb) ⟨le_of_lt hc.2.1, hc.2.2⟩]
    rw [if_neg (lt_irrefl _)]
  | some iv =>
    obtain ⟨i, v⟩ := iv
    obtain ⟨e, h1, h2⟩ := h i v rfl
    obtain ⟨hi, he⟩ := List.getElem?_eq_some_iff.1 h1
    cases v with
    | zero =>
      simp only [mutScript, List.cons_append, List.nil_append, rand_script (q := 0) ⟨le_refl _, by norm_num⟩]
      rw [if_pos hc.2.1]
      simp only [below_script hi, rand_script (q := 0) ⟨le_refl _, by norm_num⟩]
      rw [if_pos (by norm_num)]
    | succ v =>
      simp only [mutScript, List.cons_append, List.nil_append, rand_script (q := 0) ⟨le_refl _, by norm_num⟩]
      rw [if_pos hc.2.1]
      simp only [below_script hi, rand_script (q := (1 / 2 : Rat)) ⟨by norm_num, by norm_num⟩]
      rw [if_neg (lt_irrefl _)]
      have hd : cd.getD i ([], []) = e := by rw [List.getD_eq_getElem?_getD, h1]; rfl
      simp only [hd, below_script (show v < e.2.length by omega)]

def genScript (cfg : SDIGAConfig) (x : GenChoice) : List Draw := crossScript cfg x.cross ++ (mutScript cfg x.mut1 ++ mutScript cfg x.mut2)

/-- the choices of one generation are legal -/
structure LegalGen (cd : List (Str × List Val)) (x : GenChoice) : Prop where
  cross : ∀ a b, x.cross = some (a, b) → a < b ∧ b < cd.length
  mut1 : ∀ i v, x.mut1 = some (i, v) → ∃ e, cd[i]? = some e ∧ v ≤ e.2.length
  mut2 : ∀ i v, x.mut2 = some (i, v) → ∃ e, cd[i]? = some e ∧ v ≤ e.2.length

theorem scripted_gen (hc : ProbOk cfg) {cd : List (Str × List Val)} {x : GenChoice} (h : LegalGen cd x) (sort : List Ind → List Ind) (s : List Draw) :
    drawGen scripted cfg cd sort (genScript cfg x ++ s) = (⟨x.cross, x.mut1, x.mut2, sort⟩, s) := by
  unfold drawGen genScript
  simp only [List.append_assoc, scripted_cross hc x.cross h.cross, scripted_mut hc x.mut1 h.mut1, scripted_mut hc x.mut2 h.mut2]

def gensScript (cfg : SDIGAConfig) : (Nat → GenChoice) → Nat → List Draw
  | _, 0 => []
  | f, m + 1 => genScript cfg (f 0) ++ gensScript cfg (fun j => f (j + 1)) m

theorem scripted_gens (hc : ProbOk cfg) {cd : List (Str × List Val)} (k m : Nat) (hk : k ≤ m) (f : Nat → GenChoice) (h : ∀ j, LegalGen cd (f j)) (s : List Draw) :
    genState scripted cfg cd k (gensScript cfg f m ++ s) = gensScript cfg (fun j => f (j + k)) (m - k) ++ s := by
  induction k generalizing m f with
  | zero => simp [genState]
  | succ k ih =>
    obtain ⟨m, rfl⟩ : ∃ n, m = n + 1 := ⟨m - 1, by omega⟩
    simp only [genState, gensScript, List.append_assoc, scripted_gen hc (h 0)]
    rw [ih m (by omega) _ (fun j => h (j + 1))]
    have e1 : m + 1 - (k + 1) = m - k := by omega
    rw [e1]
    rfl

def turnScript (cfg : SDIGAConfig) (o : SDIGAChoice) : List Draw := popScript o.pop ++ gensScript cfg o.gens cfg.maxGen

/-- the choices of one turn are legal -/
structure LegalTurn (cfg : SDIGAConfig) (dict : List (Str × List Val)) (o : SDIGAChoice) : Prop where
  size : o.pop.length = cfg.popSize
  pop : ∀ c ∈ o.pop, List.Forall₂ (fun (e : Str × List Val) x => x ≤ e.2.length) dict c
  gens : ∀ j, LegalGen (chromDict dict) (o.gens j)

theorem scripted_turn (hc : ProbOk cfg) {dict : List (Str × List Val)} {o : SDIGAChoice} (h : LegalTurn cfg dict o) (s : List Draw) :
    turnState scripted cfg dict (turnScript cfg o ++ s) = s ∧
    ∀ sort, (turnChoice scripted cfg dict sort (turnScript cfg o ++ s)).pop = o.pop ∧ (turnChoice scripted cfg dict sort (turnScript cfg o ++ s)).sort = sort 0 ∧
      ∀ k, k < cfg.maxGen → (turnChoice scripted cfg dict sort (turnScript cfg o ++ s)).gens k = ⟨(o.gens k).cross, (o.gens k).mut1, (o.gens k).mut2, sort (k + 1)⟩ := by
  have hp := scripted_pop o.pop h.pop (gensScript cfg o.gens cfg.maxGen ++ s)
  rw [h.size] at hp
  unfold turnState turnChoice turnScript
  simp only [List.append_assoc, hp]
  refine ⟨?_, fun sort => ⟨trivial, trivial, fun k hk => ?_⟩⟩
  · rw [scripted_gens hc _ _ (le_refl _) _ h.gens]
    simp [gensScript]
  · rw [scripted_gens hc _ _ (le_of_lt hk) _ h.gens]
    obtain ⟨m, hm⟩ : ∃ n, cfg.maxGen - k = n + 1 := ⟨cfg.maxGen - k - 1, by omega⟩
    rw [hm]
    simp only [gensScript, List.append_assoc, Nat.zero_add]
    rw [scripted_gen hc (h.gens k)]

def turnsScript (cfg : SDIGAConfig) : (Nat → SDIGAChoice) → Nat → List Draw
  | _, 0 => []
  | o, m + 1 => turnScript cfg (o 0) ++ turnsScript cfg (fun j => o (j + 1)) m

theorem scripted_turns (hc : ProbOk cfg) {dict : List (Str × List Val)} (k m : Nat) (hk : k ≤ m) (o : Nat → SDIGAChoice) (h : ∀ j, LegalTurn cfg dict (o j)) :
    loopState scripted cfg dict k (turnsScript cfg o m) = turnsScript cfg (fun j => o (j + k)) (m - k) := by
  induction k generalizing m o with
  | zero => simp [loopState]
  | succ k ih =>
    obtain ⟨m, rfl⟩ : ∃ n, m = n + 1 := ⟨m - 1, by omega⟩
    simp only [loopState, turnsScript, (scripted_turn hc (h 0) _).1]
    rw [ih m (by omega) _ (fun j => h (j + 1))]
    have e1 : m + 1 - (k + 1) = m - k := by omega
    rw [e1]
    rfl

theorem evolve_congr {st : SDIGAState} {rows : List ERow} {t : Str} {dict : List (Str × List Val)} {o o' : SDIGAChoice} (h1 : o.pop = o'.pop) (h2 : o.sort = o'.sort)
    (h3 : ∀ k, k < cfg.maxGen → o.gens k = o'.gens k) : evolve cfg st rows t dict o = evolve cfg st rows t dict o' := by
  unfold evolve
  rw [h1, h2]
  have hf : ∀ (l : List Nat) (p : List Ind), (∀ k ∈ l, k < cfg.maxGen) →
      l.foldlM (fun pop k => generation cfg st rows t pop (o.gens k)) p = l.foldlM (fun pop k => generation cfg st rows t pop (o'.gens k)) p := by
    intro l
    induction l with
    | nil => intro p _; rfl
    | cons k l ih =>
      intro p hl
      rw [List.foldlM_cons, List.foldlM_cons, h3 k (hl k (by simp))]
      congr 1
      funext q
      exact ih q (fun j hj => hl j (by simp [hj]))
  simp only [hf _ _ (fun k hk => List.mem_range.1 hk)]

theorem turn_congr {st : SDIGAState} {rows : List ERow} {dict : List (Str × List Val)} {o o' : SDIGAChoice} (h1 : o.pop = o'.pop) (h2 : o.sort = o'.sort)
    (h3 : ∀ k, k < cfg.maxGen → o.gens k = o'.gens k) : turn cfg rows target dict o st = turn cfg rows target dict o' st := by
  unfold turn
  rw [evolve_congr h1 h2 h3]

theorem loop_congr {rows : List ERow} {dict : List (Str × List Val)} {o o' : Nat → SDIGAChoice} {N : Nat}
    (h : ∀ j, j < N → (o j).pop = (o' j).pop ∧ (o j).sort = (o' j).sort ∧ ∀ k, k < cfg.maxGen → (o j).gens k = (o' j).gens k) (n k : Nat) (hk : k + n ≤ N) (st : SDIGAState) :
    SDIGA.loop cfg rows target dict o n k st = SDIGA.loop cfg rows target dict o' n k st := by
  induction n generalizing k st with
  | zero => rfl
  | succ n ih =>
    unfold SDIGA.loop
    obtain ⟨a, b, c⟩ := h k (by omega)
    rw [turn_congr a b c]
    cases turn cfg rows target dict (o' k) st with
    | error e => rfl
    | ok r =>
      obtain ⟨s, g⟩ := r
      cases g
      · rfl
      · exact ih (k + 1) (by omega) s

theorem fit_congr {o o' : Nat → SDIGAChoice} {N : Nat}
    (h : ∀ j, j < N → (o j).pop = (o' j).pop ∧ (o j).sort = (o' j).sort ∧ ∀ k, k < cfg.maxGen → (o j).gens k = (o' j).gens k) (n : Nat) (hn : n ≤ N) (st : SDIGAState) :
    SDIGA.fit cfg o n st df target = SDIGA.fit cfg o' n st df target := by
  unfold SDIGA.fit
  split
  · rfl
  · split
    · rfl
    · split
      · rfl
      · exact loop_congr h n 0 (by omega) _

/-- C96, the converse: every sequence of possible choices can be drawn, by some generator that keeps the promises of `numpy.random` (for as many turns as one likes): `fit` with this generator does what it does with these
choices. The probabilities are strictly between 0 and 1, as the constructor demands (C64). -/
theorem C96_every_choice (hb : SDIGABuilt cfg) (hf : SDIGAFrame df target) (hattrs : 2 ≤ (df.cols.filter (fun e => e.1 ≠ target.1)).length) (o : Nat → SDIGAChoice)
    (ho : ∀ k, Possible cfg df target.1 (o k)) (N : Nat) :
    ∃ (σ : Type) (g : RandGen σ) (s : σ) (sort : Nat → Nat → List Ind → List Ind), LawfulGen g ∧ (∀ k j, BestFirst (sort k j)) ∧
      ∀ fuel ≤ N, ∀ st, fitRandom g cfg sort fuel s st df target = SDIGA.fit cfg o fuel st df target := by
  have hc : ProbOk cfg := by
    obtain ⟨mg, ps, cp, mp, cw, sw, mc, w, pth, h⟩ := hb
    by_cases hc : (w = true → pth = true) ∧ 0 < mg ∧ 0 < ps ∧ (0 < cp ∧ cp < 1) ∧ (0 < mp ∧ mp < 1) ∧ 0 ≤ sw ∧ 0 ≤ cw ∧ 0 ≤ mc
    · rw [(C64_constructor mg ps cp mp cw sw mc w pth).1.2 hc] at h
      cases h
      exact ⟨hc.2.2.2.1, hc.2.2.2.2.1⟩
    · rw [(C64_constructor mg ps cp mp cw sw mc w pth).2 hc] at h
      cases h
  have hlen : (encodeDict df target.1).length = (df.cols.filter (fun e => e.1 ≠ target.1)).length := by
    unfold encodeDict; rw [List.length_map]; rfl
  have hmut : ∀ m, IsMutation df target.1 m → ∀ i v, m = some (i, v) → ∃ e, (encodeDict df target.1)[i]? = some e ∧ v ≤ e.2.length := by
    intro m hm i v h
    obtain ⟨col, h1, h2⟩ := hm i v h
    refine ⟨(col.1, groupKeys col.2), ?_, by simpa [groupKeys_length] using h2⟩
    unfold encodeDict
    rw [List.getElem?_map]
    have : (otherCols df target.1)[i]? = some col := h1
    rw [this]; rfl
  have hl : ∀ k, LegalTurn cfg (encodeDict df target.1) (o k) := by
    intro k
    refine ⟨(ho k).size, fun c hc => dict_chrom.1 ((ho k).pop c hc), fun j => ?_⟩
    rw [chromDict_all hf]
    exact ⟨fun a b h => by rw [hlen]; exact (ho k).cross hattrs j a b h, hmut _ ((ho k).mut1 j), hmut _ ((ho k).mut2 j)⟩
  refine ⟨List Draw, scripted, turnsScript cfg o N, fun k j => match j with | 0 => (o k).sort | j + 1 => ((o k).gens j).sort, scripted_lawful, ?_, ?_⟩
  · intro k j
    cases j with
    | zero => exact (ho k).sort
    | succ j => exact (ho k).gsort j
  · intro fuel hfuel st
    unfold fitRandom
    refine fit_congr (N := N) (fun k hk => ?_) fuel hfuel st
    rw [scripted_turns hc k N (le_of_lt hk) o hl]
    obtain ⟨m, hm⟩ : ∃ n, N - k = n + 1 := ⟨N - k - 1, by omega⟩
    rw [hm]
    simp only [turnsScript, Nat.zero_add]
    obtain ⟨_, h2⟩ := scripted_turn hc (hl k) (turnsScript cfg (fun j => o (j + 1 + k)) m)
    obtain ⟨a, b, c⟩ := h2 (fun j => match j with | 0 => (o k).sort | j + 1 => ((o k).gens j).sort)
    exact ⟨a, b, fun j hj => by rw [c j hj]⟩

/-- the hypotheses can be met, and the run of `sdigaDemoRun` is drawn by some generator -/
example : ∃ (σ : Type) (g : RandGen σ) (s : σ) (sort : Nat → Nat → List Ind → List Ind), LawfulGen g ∧
    fitRandom g sdigaDemoCfg sort 20 s ⟨0, 0, [], [], [], 0, 0, 0, 0⟩ demoFrame (c!"t", c!"yes") = sdigaDemoRun := by
  obtain ⟨σ, g, s, sort, h1, _, h3⟩ := C96_every_choice sdigaDemoReady.built sdigaDemoReady.frame sdigaDemoReady.attrs _ sdigaDemoReady.choices 20
  exact ⟨σ, g, s, sort, h1, h3 20 (le_refl _) _⟩
end

/-- C96: a `randint` that includes its upper end (as the one of the module `random` does) would draw a chromosome that has no meaning: `fit` can then fail with an `IndexError`. -/
theorem C96_inclusive_fails : ∃ c : Chrom, List.Forall₂ (fun (e : Str × List Val) x => x ≤ e.2.length + 1) (encodeDict demoFrame c!"t") c ∧
    ∃ e, decode (encodeDict demoFrame c!"t") c = .error e := by
  refine ⟨[3, 0], ?_, .indexError, by decide +kernel⟩
  have : encodeDict demoFrame c!"t" = [(c!"a", [.str c!"x", .str c!"y"]), (c!"b", [.str c!"p", .str c!"q"])] := by decide +kernel
  rw [this]
  exact .cons (by decide) (.cons (by decide) .nil)

end Verif

import Verif.Props.SDIGA
import Verif.Props.BinaryVal
import Verif.Lemmas.FloatSDIGA
import Verif.Lemmas.Float64
/-! C107: SDIGA in floating-point arithmetic. -/
set_option linter.unusedSectionVars false
namespace Verif
open Spec Float64

/-! ### the roundings -/

theorem roundAny_mono {x y : Rat} (h : x ≤ y) : Binary64.roundAny x ≤ Binary64.roundAny y := by
  have pos : ∀ {x y : Rat}, 0 < x → x ≤ y → Binary64.roundPos x ≤ Binary64.roundPos y := by
    intro x y hx h
    rw [Binary64.roundPos_eq, Binary64.roundPos_eq]
    have he := expOf_mono hx h
    rcases eq_or_lt_of_le (show Binary64.lastExp x ≤ Binary64.lastExp y by unfold Binary64.lastExp; omega) with e | e
    · rw [e]
      apply mul_le_mul_of_nonneg_right _ (two_pos _).le
      exact_mod_cast nearestInt_mono (mul_le_mul_of_nonneg_right h (two_pos _).le)
    · obtain ⟨a1, a2, a3, a4⟩ := Binary64.scaled_bounds hx
      obtain ⟨b1, b2, b3, b4⟩ := Binary64.scaled_bounds (hx.trans_le h)
      have hb : 2 ^ 52 ≤ nearestInt (y * 2 ^ (-Binary64.lastExp y)) := by
        rcases b3 with b3 | b3
        · exact b3
        · exfalso
          have : -1074 ≤ Binary64.lastExp x := le_max_right _ _
          omega
      calc (nearestInt (x * 2 ^ (-Binary64.lastExp x)) : Rat) * 2 ^ Binary64.lastExp x
          ≤ ((2 ^ 53 : Int) : Rat) * 2 ^ Binary64.lastExp x := by
            apply mul_le_mul_of_nonneg_right _ (two_pos _).le
            exact_mod_cast a2
        _ = ((2 ^ 52 : Int) : Rat) * 2 ^ (Binary64.lastExp x + 1) := by rw [zpow_add₀ (by norm_num)]; push_cast; ring
        _ ≤ ((2 ^ 52 : Int) : Rat) * 2 ^ Binary64.lastExp y := by
            apply mul_le_mul_of_nonneg_left _ (by positivity)
            exact Binary64.zpow_le (by omega)
        _ ≤ _ := by
            apply mul_le_mul_of_nonneg_right _ (two_pos _).le
            exact_mod_cast hb
  unfold Binary64.roundAny
  split
  · rename_i h1
    rw [if_pos (h1.trans_le h)]
    exact pos h1 h
  · rename_i h1
    split
    · rename_i h2
      have n1 := Binary64.roundPos_pos (q := -x) (by linarith)
      split
      · rename_i h3
        have := Binary64.roundPos_pos h3
        linarith
      · split
        · rename_i h4
          have := pos (x := -y) (y := -x) (by linarith) (by linarith)
          linarith
        · linarith
    · rename_i h2
      have hx : x = 0 := le_antisymm (not_lt.1 h1) (not_lt.1 h2)
      subst hx
      split
      · rename_i h3; exact Binary64.roundPos_pos h3
      · rw [if_neg (not_lt.2 h)]

/-- every rounded number is a multiple of the smallest subnormal number -/
theorem roundAny_grid (x : Rat) : ∃ n : Int, Binary64.roundAny x = n * (2 : Rat) ^ (-1074 : Int) := by
  have pos : ∀ x : Rat, ∃ n : Int, Binary64.roundPos x = n * (2 : Rat) ^ (-1074 : Int) := by
    intro x
    rw [Binary64.roundPos_eq]
    have : -1074 ≤ Binary64.lastExp x := le_max_right _ _
    obtain ⟨j, hj⟩ := Int.eq_ofNat_of_zero_le (show 0 ≤ Binary64.lastExp x - (-1074) by omega)
    refine ⟨nearestInt (x * 2 ^ (-Binary64.lastExp x)) * 2 ^ j, ?_⟩
    generalize nearestInt (x * 2 ^ (-Binary64.lastExp x)) = m
    rw [show Binary64.lastExp x = (j : Int) + (-1074) by omega, zpow_add₀ (by norm_num), zpow_natCast]
    push_cast; ring
  unfold Binary64.roundAny
  split
  · exact pos x
  · split
    · obtain ⟨n, hn⟩ := pos (-x)
      exact ⟨-n, by rw [hn]; push_cast; ring⟩
    · exact ⟨0, by simp⟩

theorem roundAny_tiny : Binary64.roundAny ((2 : Rat) ^ (-1074 : Int)) = (2 : Rat) ^ (-1074 : Int) := by
  have h : Binary64.round ((2 : Rat) ^ (-1074 : Int)) = .fin ((2 : Rat) ^ (-1074 : Int)) :=
    round_float ⟨1, -1074, by norm_num, by norm_num, by norm_num, by norm_num⟩
  unfold Binary64.round at h
  split at h
  · cases h
  · split at h
    · cases h
    · exact XF.fin.inj h

/-- C107 (the arithmetic): exact numbers, floats without a limit of the exponents and floats of the format binary64 with their subnormal numbers all
are roundings for which the following theorems hold. -/
theorem C107_roundings : Rounds id ∧ Rounds fl ∧ Rounds Binary64.roundAny := by
  refine ⟨⟨fun h => h, rfl, fun h => sub_pos.2 h⟩, ⟨fl_mono, fl_zero, fun h => fl_pos (sub_pos.2 h)⟩, ⟨roundAny_mono, ?_, ?_⟩⟩
  · unfold Binary64.roundAny; simp
  · intro x y h
    obtain ⟨n, hn⟩ := roundAny_grid x
    obtain ⟨m, hm⟩ := roundAny_grid y
    have hp := two_pos (-1074)
    have hnm : n < m := by
      rw [hn, hm] at h
      exact_mod_cast lt_of_mul_lt_mul_right h hp.le
    have : (2 : Rat) ^ (-1074 : Int) ≤ Binary64.roundAny y - Binary64.roundAny x := by
      rw [hn, hm, ← sub_mul]
      have : (1 : Rat) ≤ (m : Rat) - n := by
        have : n + 1 ≤ m := hnm
        have : ((n + 1 : Int) : Rat) ≤ m := by exact_mod_cast this
        push_cast at this
        linarith
      calc (2 : Rat) ^ (-1074 : Int) = 1 * 2 ^ (-1074 : Int) := by rw [one_mul]
        _ ≤ _ := mul_le_mul_of_nonneg_right this hp.le
    have := roundAny_mono this
    rw [roundAny_tiny] at this
    exact lt_of_lt_of_le hp this


/-- C107 (the model): with the rounding that changes nothing, SDIGA in floating point is the model of SDIGA with exact numbers. -/
theorem C107_no_rounding (cfg : SDIGAConfig) (o : Nat → SDIGAChoice) (fuel : Nat) (st : SDIGAState) (df : Frame) (target : Str × Str) :
    SDIGARounded.fit id cfg o fuel st df target = SDIGA.fit cfg o fuel st df target := by
  have hmap : ∀ e : Except PyErr Rat, e.map id = e := by intro e; cases e <;> rfl
  have h1 : SDIGARounded.calculateSupport id = SDIGA.calculateSupport := by
    funext tp TP FP
    unfold SDIGARounded.calculateSupport SDIGA.calculateSupport
    rw [hmap]
  have h2 : SDIGARounded.calculateConfidence id = SDIGA.calculateConfidence := by
    funext tp fp
    unfold SDIGARounded.calculateConfidence SDIGA.calculateConfidence
    rw [hmap]
  have h3 : SDIGARounded.fitness id = SDIGA.fitness := by
    funext cfg st rows tval c
    unfold SDIGARounded.fitness SDIGA.fitness
    simp only [h1, h2, hmap, id]
  have h4 : SDIGARounded.measure id = SDIGA.measure := by
    funext st rows tval c
    unfold SDIGARounded.measure SDIGA.measure
    rw [h1, h2]
  have h5 : SDIGARounded.dropStep id = SDIGA.dropStep := by
    funext st rows tval cur acc i
    unfold SDIGARounded.dropStep SDIGA.dropStep
    rw [h4]
    rfl
  have h6 : ∀ st rows tval n cur, SDIGARounded.searchLoop id st rows tval n cur = SDIGA.searchLoop st rows tval n cur := by
    intro st rows tval n
    induction n with
    | zero => intro cur; rfl
    | succ n ih =>
      intro cur
      unfold SDIGARounded.searchLoop SDIGA.searchLoop
      rw [h5]
      cases hh : (List.range cur.chrom.length).foldlM (SDIGA.dropStep st rows tval cur) (none, 0) with
      | error e => rfl
      | ok r =>
        obtain ⟨a, b⟩ := r
        cases a with
        | none => rfl
        | some m => exact ih m
  have h7 : SDIGARounded.localSearch id = SDIGA.localSearch := by
    funext cfg st rows tval c
    unfold SDIGARounded.localSearch SDIGA.localSearch
    simp only [h4, h6, h3]
  have h8 : SDIGARounded.generation id = SDIGA.generation := by
    funext cfg st rows tval pop g
    unfold SDIGARounded.generation SDIGA.generation
    rw [h3]
    rfl
  have h9 : SDIGARounded.evolve id = SDIGA.evolve := by
    funext cfg st rows tval dict o
    unfold SDIGARounded.evolve SDIGA.evolve SDIGARounded.evaluate SDIGA.evaluate
    rw [h8, h3]
    rfl
  have h10 : SDIGARounded.turn id = SDIGA.turn := by
    funext cfg rows target dict o st
    unfold SDIGARounded.turn SDIGA.turn
    rw [h9, h7]
  have h11 : ∀ cfg rows target dict o n k st, SDIGARounded.loop id cfg rows target dict o n k st = SDIGA.loop cfg rows target dict o n k st := by
    intro cfg rows target dict o n
    induction n with
    | zero => intro k st; rfl
    | succ n ih =>
      intro k st
      unfold SDIGARounded.loop SDIGA.loop
      rw [h10]
      cases hh : SDIGA.turn cfg rows target dict (o k) st with
      | error e => rfl
      | ok r =>
        obtain ⟨a, b⟩ := r
        cases b with
        | false => rfl
        | true => exact ih _ _
  unfold SDIGARounded.fit SDIGA.fit
  simp only [h11]
  rfl

section
open Classical SDIGA

variable {ρ : Rat → Rat} {df : Frame} {target : Str × Str} {cfg : SDIGAConfig} {tcol : List Val} {st : SDIGAState} {l : List Pattern}

/-- the weights are floats: rounding does not change them -/
def WeightsRounded (ρ : Rat → Rat) (cfg : SDIGAConfig) : Prop := ρ cfg.supW = cfg.supW ∧ ρ cfg.confW = cfg.confW

theorem weights_sum (hρ : Rounds ρ) (hb : SDIGABuilt cfg) (hw : 0 < cfg.supW + cfg.confW) (hr : WeightsRounded ρ cfg) : ρ (cfg.supW + cfg.confW) ≠ 0 := by
  obtain ⟨_, _, h1, h2, _⟩ := hb.pos
  have a1 := hρ.mono (show cfg.supW ≤ cfg.supW + cfg.confW by linarith)
  have a2 := hρ.mono (show cfg.confW ≤ cfg.supW + cfg.confW by linarith)
  rw [hr.1] at a1
  rw [hr.2] at a2
  intro h0
  rw [h0] at a1 a2
  linarith

/-- C107 (results): whatever the random choices and the rounding, `fit` ends, after at most as many turns as there are rules, plus one. The patterns returned are
rules of the data whose confidence, rounded, is at least `min_confidence`; they are pairwise different and none is refined by a later one. The loop
stops because the last turn found a rule, with a calculated fitness at least that of every individual of its first population, that an earlier pattern generalises or
whose rounded confidence is too low. -/
theorem C107_results (hρ : Rounds ρ) {o : Nat → SDIGAChoice} (h : SDIGAReady cfg df target o) (hr : WeightsRounded ρ cfg) (st : SDIGAState) :
    ∃ st', (∀ fuel, ruleCount df target.1 < fuel → SDIGARounded.fit ρ cfg o fuel st df target = some (.ok st')) ∧
      st'.cases.length ≤ ruleCount df target.1 ∧
      (∀ p ∈ st'.cases, IsRule df target p.sels ∧ cfg.minConf ≤ ρ (confOf df target p.sels)) ∧
      st'.cases.Pairwise (fun p q => p ≠ q ∧ p.isRefinement q true = false) ∧
      ∃ X, IsRule df target X ∧
        (∀ c ∈ (o st'.cases.length).pop, ∀ q, decode (chromDict (encodeDict df target.1)) c = .ok q →
          fitRounded ρ cfg df target st'.cases q.sels ≤ fitRounded ρ cfg df target st'.cases X) ∧
        ((∃ p ∈ st'.cases, ∀ s ∈ p.sels, s ∈ X) ∨ ρ (confOf df target X) < cfg.minConf) := by
  obtain ⟨tcol, st', h1, h2, h3, e, e1, e2, e3⟩ := SDIGARounded.fit_ok hρ h.frame h.occurs h.built.pos.2.2.1 h.built.pos.2.2.2.1
    (weights_sum hρ h.built h.weights hr) h.attrs h.two h.choices st
  refine ⟨st', h2, h3.bound, fun p hp => ⟨?_, h3.conf p hp⟩, ?_, (pat df target e).sels, pat_rule h.frame e, ?_, e3⟩
  · obtain ⟨c, _, rfl⟩ := h3.rule p hp
    exact pat_rule h.frame c
  · refine h3.new.imp ?_
    intro p q hpq
    refine ⟨fun he => hpq (fun s hs => he ▸ hs), ?_⟩
    rw [← Bool.not_eq_true, Pattern.isRefinement_iff]
    exact fun hh => hpq hh.1
  · intro c hc q hq
    have hcc := (h.choices _).pop c hc
    rw [decode_pat h.frame hcc] at hq
    cases hq
    exact e2 c hc

/-- C107 (counters and file): `selected_subgroups`, `unselected_subgroups`, the unchecked rows and the result file are as in C62, with the fitness as it was calculated. -/
theorem C107_counters_and_file (hρ : Rounds ρ) {o : Nat → SDIGAChoice} (h : SDIGAReady cfg df target o) (hr : WeightsRounded ρ cfg) (st : SDIGAState)
    {fuel : Nat} {st' : SDIGAState} (hfit : SDIGARounded.fit ρ cfg o fuel st df target = some (.ok st')) (hfuel : ruleCount df target.1 < fuel) :
    st'.selected = st.selected + st'.cases.length ∧
    st'.unselected = st.unselected + (st'.cases.length + 1) * (2 * cfg.maxGen + (cfg.popSize - 1)) ∧
    (∃ tcol, df.col target.1 = .ok tcol ∧ SDIGARunning df target tcol st'.cases st') ∧
    (cfg.write = true → st'.file.length = st'.cases.length ∧
      ∀ k p x, st'.cases[k]? = some p → st'.file[k]? = some x → LineRounded ρ cfg df target (st'.cases.take k) p x) ∧
    (cfg.write = false → st'.file = st.file) := by
  obtain ⟨tcol, st'', h1, h2, h3, _⟩ := SDIGARounded.fit_ok hρ h.frame h.occurs h.built.pos.2.2.1 h.built.pos.2.2.2.1
    (weights_sum hρ h.built h.weights hr) h.attrs h.two h.choices st
  rw [h2 fuel hfuel] at hfit
  cases hfit
  exact ⟨h3.selected, h3.unselected, ⟨tcol, h1, ctx_iff.2 h3.ctx⟩, h3.file, h3.nofile⟩

/-- C107 (selection): the calculated fitness of the `k`-th pattern is at least that of every individual of the first population of its turn. -/
theorem C107_as_fit_as_the_population (hρ : Rounds ρ) {o : Nat → SDIGAChoice} (h : SDIGAReady cfg df target o) (hr : WeightsRounded ρ cfg) (st : SDIGAState)
    {fuel : Nat} {st' : SDIGAState} (hfit : SDIGARounded.fit ρ cfg o fuel st df target = some (.ok st')) (hfuel : ruleCount df target.1 < fuel)
    {k : Nat} {p : Pattern} (hk : st'.cases[k]? = some p) {c : Chrom} (hc : c ∈ (o k).pop) {q : Pattern}
    (hq : decode (chromDict (encodeDict df target.1)) c = .ok q) :
    fitRounded ρ cfg df target (st'.cases.take k) q.sels ≤ fitRounded ρ cfg df target (st'.cases.take k) p.sels := by
  obtain ⟨tcol, st'', h1, h2, h3, _⟩ := SDIGARounded.fit_ok hρ h.frame h.occurs h.built.pos.2.2.1 h.built.pos.2.2.2.1
    (weights_sum hρ h.built h.weights hr) h.attrs h.two h.choices st
  rw [h2 fuel hfuel] at hfit
  cases hfit
  have hcc := (h.choices k).pop c hc
  rw [decode_pat h.frame hcc] at hq
  cases hq
  exact h3.elite k p hk c hc

/-- dropping a condition of the pattern of a chromosome sets one gene to 0 -/
theorem drop_gene (hf : SDIGAFrame df target) {d : Chrom} {s : Selector} (hs : s ∈ (pat df target d).sels) {X : List Selector}
    (hX : ∀ t, t ∈ X ↔ t ∈ (pat df target d).sels ∧ t ≠ s) :
    ∃ k, d[k]?.getD 0 ≠ 0 ∧ ∀ t, t ∈ X ↔ t ∈ (pat df target (d.set k 0)).sels := by
  obtain ⟨k, col, g, v, g1, g2, g3, g4, rfl⟩ := mem_selsOf.1 ((mem_pattern hf s).1 hs)
  refine ⟨k, by rw [g2]; exact g3, ?_⟩
  intro t
  rw [hX]
  show _ ↔ t ∈ (Pattern.new _).sels
  rw [mem_pattern hf]
  constructor
  · rintro ⟨ht, hne⟩
    obtain ⟨k', col', g', v', a1, a2, a3, a4, rfl⟩ := mem_selsOf.1 ((mem_pattern hf t).1 ht)
    have hkk : k ≠ k' := by
      rintro rfl
      rw [g1] at a1; cases a1
      rw [g2] at a2; cases a2
      rw [g4] at a4; cases a4
      exact hne rfl
    exact mem_selsOf.2 ⟨k', col', g', v', a1, by rw [List.getElem?_set_ne hkk]; exact a2, a3, a4, rfl⟩
  · intro ht
    obtain ⟨k', col', g', v', a1, a2, a3, a4, rfl⟩ := mem_selsOf.1 ht
    have hkk : k ≠ k' := by
      rintro rfl
      obtain ⟨hlt, _⟩ := List.getElem?_eq_some_iff.1 g2
      rw [List.getElem?_set_self hlt] at a2
      cases a2
      exact a3 rfl
    rw [List.getElem?_set_ne hkk] at a2
    refine ⟨(mem_pattern hf _).2 (mem_selsOf.2 ⟨k', col', g', v', a1, a2, a3, a4, rfl⟩), ?_⟩
    intro he
    have hn : ((otherCols df target.1).map (·.1)).Nodup := hf.nominal.names.sublist (List.filter_sublist.map _)
    have e1 : ((otherCols df target.1).map (·.1))[k]? = some col.1 := by rw [List.getElem?_map, g1]; rfl
    have e2 : ((otherCols df target.1).map (·.1))[k']? = some col.1 := by
      rw [List.getElem?_map, a1]
      exact congrArg some (congrArg Selector.attr he)
    exact hkk ((List.Nodup.getElem_inj_iff hn (hi := (List.getElem?_eq_some_iff.1 e1).1) (hj := (List.getElem?_eq_some_iff.1 e2).1)).1
      (by rw [(List.getElem?_eq_some_iff.1 e1).2, (List.getElem?_eq_some_iff.1 e2).2]))

/-- C107 (local search): as C44, with rounded support and confidence: local search of a chromosome `c` with pattern `p` always ends. Its search reaches a pattern `q` that
generalises `p`, whose rounded support and confidence are at least those of `p`, with more rounded support unless it is `p` itself, and from which no condition can be dropped any more
with a gain of rounded support and no loss of rounded confidence. If the rounded confidence of `q` is at least the minimum, `q`'s chromosome is returned, with its calculated confidence and fitness
and its counts; otherwise `c` is returned with its calculated fitness and its counts, and the confidence returned is that of `q`, less than the minimum. -/
theorem C107_local_search (hρ : Rounds ρ) (hf : SDIGAFrame df target) (ht : df.col target.1 = .ok tcol) (hx : SDIGARunning df target tcol l st)
    (hw : ρ (cfg.supW + cfg.confW) ≠ 0) {c : Chrom} (hc : IsChrom df target.1 c) {p : Pattern}
    (hp : decode (chromDict (encodeDict df target.1)) c = .ok p) :
    ∃ d q, IsChrom df target.1 d ∧ decode (chromDict (encodeDict df target.1)) d = .ok q ∧ (∀ s ∈ q.sels, s ∈ p.sels) ∧
      ρ (suppOf df target p.sels) ≤ ρ (suppOf df target q.sels) ∧ ρ (confOf df target p.sels) ≤ ρ (confOf df target q.sels) ∧
      (d = c ∨ ρ (suppOf df target p.sels) < ρ (suppOf df target q.sels)) ∧
      (∀ s ∈ q.sels, ∀ X, (∀ t, t ∈ X ↔ t ∈ q.sels ∧ t ≠ s) → 0 < ρ (confOf df target X) →
        ¬ (ρ (suppOf df target q.sels) < ρ (suppOf df target X) ∧ ρ (confOf df target q.sels) ≤ ρ (confOf df target X))) ∧
      ((cfg.minConf ≤ ρ (confOf df target q.sels) ∧ SDIGARounded.localSearch ρ cfg st (encodeRows df target.1 tcol) target.2 c =
          .ok (d, ρ (confOf df target q.sels), fitRounded ρ cfg df target l q.sels, tpOf df target q.sels, fpOf df target q.sels)) ∨
       (ρ (confOf df target q.sels) < cfg.minConf ∧ SDIGARounded.localSearch ρ cfg st (encodeRows df target.1 tcol) target.2 c =
          .ok (c, ρ (confOf df target q.sels), fitRounded ρ cfg df target l p.sels, tpOf df target p.sels, fpOf df target p.sels))) := by
  rw [decode_pat hf hc] at hp
  cases hp
  obtain ⟨d, k1, k2, k3, k4, k5⟩ := SDIGARounded.localSearch_spec hρ hf ht (ctx_iff.1 hx) hw hc
  have hd := k1.isChrom hc
  refine ⟨d, pat df target d, hd, decode_pat hf hd, k1.pat hf, ?_, k3, k2, ?_, ?_⟩
  · rcases k2 with rfl | k2
    · exact le_refl _
    · exact le_of_lt k2
  · intro s hs X hX hpos ⟨h1, h2⟩
    obtain ⟨k, g2, hset⟩ := drop_gene hf hs hX
    have hsupp : ρ (suppOf df target X) = (SDIGARounded.met ρ df target (d.set k 0)).support := by
      simp only [suppOf, SDIGARounded.met, tpOf_congr hset]
    have hconf : ρ (confOf df target X) = (SDIGARounded.met ρ df target (d.set k 0)).confidence := by
      simp only [confOf, SDIGARounded.met, tpOf_congr hset, fpOf_congr hset]
    have := k4 k ⟨g2, by rw [← hsupp]; exact le_of_lt h1, by rw [← hconf]; exact h2, by rw [← hconf]; exact hpos⟩
    rw [← hsupp] at this
    exact absurd h1 (not_lt.2 this)
  · by_cases hm : (SDIGARounded.met ρ df target d).confidence ≥ cfg.minConf
    · left
      rw [if_pos hm] at k5
      exact ⟨hm, k5⟩
    · right
      rw [if_neg hm] at k5
      exact ⟨not_le.1 hm, k5⟩

/-! ### what rounding does to 53 binary digits -/

theorem fl_le_of {q : Rat} (h : 0 ≤ q) : fl q ≤ q * (1 + 2 ^ (-53 : Int)) ∧ q * (1 - 2 ^ (-53 : Int)) ≤ fl q := by
  have := fl_error q
  rw [abs_of_nonneg h, abs_le] at this
  constructor <;> linarith [this.1, this.2]

/-- fractions between 0 and 1 with denominators up to `2^26` keep their order when they are rounded -/
theorem fl_fraction {a b c d : Nat} (hb : b ≤ 2 ^ 26) (hd : d ≤ 2 ^ 26) (hab : a ≤ b) (hcd : c ≤ d) (h : (a : Rat) / b < (c : Rat) / d) :
    fl ((a : Rat) / b) < fl ((c : Rat) / d) := by
  rcases Nat.eq_zero_or_pos b with rfl | hb0
  · have h' := h
    simp only [Nat.cast_zero, div_zero] at h' ⊢
    rw [fl_zero]
    exact fl_pos h'
  rcases Nat.eq_zero_or_pos d with rfl | hd0
  · simp only [Nat.cast_zero, div_zero] at h
    have : (0 : Rat) ≤ (a : Rat) / b := by positivity
    linarith
  have hbq : (0 : Rat) < b := by exact_mod_cast hb0
  have hdq : (0 : Rat) < d := by exact_mod_cast hd0
  have h1 : a * d + 1 ≤ c * b := by
    rw [div_lt_div_iff₀ hbq hdq] at h
    exact_mod_cast h
  have h2 : ((a * d + 1 : Nat) : Rat) ≤ ((c * b : Nat) : Rat) := by exact_mod_cast h1
  push_cast at h2
  have h3 : (1 : Rat) / (b * d) ≤ (c : Rat) / d - (a : Rat) / b := by
    rw [div_sub_div _ _ hdq.ne' hbq.ne', div_le_div_iff₀ (by positivity) (by positivity)]
    have : (0 : Rat) < d * b := by positivity
    nlinarith
  have h4 : (2 : Rat) ^ (-52 : Int) ≤ 1 / (b * d) := by
    have e : ((b * d : Nat) : Rat) ≤ ((2 ^ 52 : Nat) : Rat) := by
      exact_mod_cast (Nat.mul_le_mul hb hd).trans (by norm_num)
    push_cast at e
    rw [le_div_iff₀ (by positivity)]
    calc (2 : Rat) ^ (-52 : Int) * (b * d) ≤ 2 ^ (-52 : Int) * 2 ^ 52 := mul_le_mul_of_nonneg_left e (by positivity)
      _ = 1 := by norm_num
  have ha1 : (a : Rat) / b ≤ 1 := (div_le_one hbq).2 (by exact_mod_cast hab)
  have hc1 : (c : Rat) / d ≤ 1 := (div_le_one hdq).2 (by exact_mod_cast hcd)
  have ha0 : (0 : Rat) ≤ (a : Rat) / b := by positivity
  have hc0 : (0 : Rat) ≤ (c : Rat) / d := by positivity
  have e1 := (fl_le_of ha0).1
  have e2 := (fl_le_of hc0).2
  generalize (a : Rat) / b = x at *
  generalize (c : Rat) / d = y at *
  norm_num at *
  linarith only [e1, e2, h, h3, h4, ha1, hc1]

theorem covered_le (X : List Selector) : tpOf df target X + fpOf df target X ≤ df.nrows := by
  have h1 : tpOf df target X ≤ tpOf df target [] := tpOf_mono (by simp)
  have h2 : fpOf df target X ≤ fpOf df target [] := fpOf_mono (by simp)
  have h3 := tp_add_fp_nil (df := df) (target := target)
  omega

theorem supp_order (hN : df.nrows ≤ 2 ^ 26) (X Y : List Selector) : fl (suppOf df target X) ≤ fl (suppOf df target Y) ↔ suppOf df target X ≤ suppOf df target Y := by
  refine ⟨fun h => ?_, fun h => fl_mono h⟩
  by_contra hn
  have h1 := covered_le (df := df) (target := target) X
  have h2 := covered_le (df := df) (target := target) Y
  exact absurd h (not_le.2 (fl_fraction hN hN (by omega) (by omega) (not_le.1 hn)))

theorem conf_order (hN : df.nrows ≤ 2 ^ 26) (X Y : List Selector) : fl (confOf df target X) ≤ fl (confOf df target Y) ↔ confOf df target X ≤ confOf df target Y := by
  refine ⟨fun h => ?_, fun h => fl_mono h⟩
  by_contra hn
  have h1 := covered_le (df := df) (target := target) X
  have h2 := covered_le (df := df) (target := target) Y
  unfold confOf at h hn
  have e : ∀ a b : Nat, (a : Rat) + (b : Rat) = ((a + b : Nat) : Rat) := by intros; push_cast; rfl
  rw [e, e] at h hn
  exact absurd h (not_le.2 (fl_fraction (h2.trans hN) (h1.trans hN) (by omega) (by omega) (not_le.1 hn)))

/-- C107 (local search on up to `2^26` rows): rounding changes no comparison of supports and of confidences. The search reaches, as with exact numbers (C44), a pattern `q` that
generalises `p` with a support and a confidence not below those of `p` and from which no condition can be dropped with a gain of support and no loss of confidence. -/
theorem C107_local_search_exact (hN : df.nrows ≤ 2 ^ 26) (hf : SDIGAFrame df target) (ht : df.col target.1 = .ok tcol) (hx : SDIGARunning df target tcol l st)
    (hw : 0 < cfg.supW + cfg.confW) {c : Chrom} (hc : IsChrom df target.1 c) {p : Pattern}
    (hp : decode (chromDict (encodeDict df target.1)) c = .ok p) :
    ∃ d q, IsChrom df target.1 d ∧ decode (chromDict (encodeDict df target.1)) d = .ok q ∧ (∀ s ∈ q.sels, s ∈ p.sels) ∧
      suppOf df target p.sels ≤ suppOf df target q.sels ∧ confOf df target p.sels ≤ confOf df target q.sels ∧
      (d = c ∨ suppOf df target p.sels < suppOf df target q.sels) ∧
      (∀ s ∈ q.sels, ∀ X, (∀ t, t ∈ X ↔ t ∈ q.sels ∧ t ≠ s) →
        ¬ (suppOf df target q.sels < suppOf df target X ∧ confOf df target q.sels ≤ confOf df target X)) ∧
      ((cfg.minConf ≤ fl (confOf df target q.sels) ∧ SDIGARounded.localSearch fl cfg st (encodeRows df target.1 tcol) target.2 c =
          .ok (d, fl (confOf df target q.sels), fitRounded fl cfg df target l q.sels, tpOf df target q.sels, fpOf df target q.sels)) ∨
       (fl (confOf df target q.sels) < cfg.minConf ∧ SDIGARounded.localSearch fl cfg st (encodeRows df target.1 tcol) target.2 c =
          .ok (c, fl (confOf df target q.sels), fitRounded fl cfg df target l p.sels, tpOf df target p.sels, fpOf df target p.sels))) := by
  obtain ⟨d, q, h1, h2, h3, h4, h5, h6, h7, h8⟩ := C107_local_search C107_roundings.2.1 hf ht hx (fl_pos hw).ne' hc hp
  refine ⟨d, q, h1, h2, h3, (supp_order hN _ _).1 h4, (conf_order hN _ _).1 h5, ?_, ?_, h8⟩
  · rcases h6 with h6 | h6
    · exact Or.inl h6
    · refine Or.inr (not_le.1 fun hh => absurd h6 (not_lt.2 ((supp_order hN _ _).2 hh)))
  · intro s hs X hX ⟨g1, g2⟩
    have hpos : 0 < confOf df target X := by
      have h0 : 0 ≤ suppOf df target q.sels := by unfold suppOf; positivity
      have h3 : 0 < suppOf df target X := lt_of_le_of_lt h0 g1
      unfold suppOf at h3
      have h4 : (0 : Rat) < tpOf df target X := by
        by_contra hn
        have : (tpOf df target X : Rat) = 0 := le_antisymm (not_lt.1 hn) (Nat.cast_nonneg _)
        rw [this, zero_div] at h3
        exact lt_irrefl _ h3
      unfold confOf
      apply div_pos h4
      positivity
    exact h7 s hs X hX (fl_pos hpos) ⟨not_le.1 fun hh => absurd g1 (not_lt.2 ((supp_order hN _ _).1 hh)), (conf_order hN _ _).2 g2⟩

/-- C107 (minimum confidence): if `min_confidence` is a float, every pattern returned has at least this confidence up to a relative error of `2^-53`, and no pattern whose exact confidence
is at least `min_confidence` is refused for its confidence. -/
theorem C107_confidence {o : Nat → SDIGAChoice} (h : SDIGAReady cfg df target o) (hr : WeightsRounded fl cfg) (hm : IsFloat cfg.minConf) (st : SDIGAState) :
    ∃ st', (∀ fuel, ruleCount df target.1 < fuel → SDIGARounded.fit fl cfg o fuel st df target = some (.ok st')) ∧
      (∀ p ∈ st'.cases, cfg.minConf ≤ confOf df target p.sels * (1 + 2 ^ (-53 : Int))) ∧
      ∃ X, IsRule df target X ∧
        (∀ c ∈ (o st'.cases.length).pop, ∀ q, decode (chromDict (encodeDict df target.1)) c = .ok q →
          fitRounded fl cfg df target st'.cases q.sels ≤ fitRounded fl cfg df target st'.cases X) ∧
        ((∃ p ∈ st'.cases, ∀ s ∈ p.sels, s ∈ X) ∨ confOf df target X < cfg.minConf) := by
  obtain ⟨st', h1, h2, h3, h4, X, h5, h6, h7⟩ := C107_results C107_roundings.2.1 h hr st
  refine ⟨st', h1, fun p hp => (h3 p hp).2.trans (fl_le_of ?_).1, X, h5, h6, ?_⟩
  · unfold confOf; positivity
  · rcases h7 with h7 | h7
    · exact Or.inl h7
    · refine Or.inr (not_le.1 fun hh => ?_)
      have := fl_mono hh
      rw [fl_float hm] at this
      linarith

/-- C107 (fitness): the calculated fitness differs from the exact one by a relative error of at most `6 * 2^-53`. -/
theorem C107_fitness_error (h1 : 0 ≤ cfg.supW) (h2 : 0 ≤ cfg.confW) (hw : 0 < cfg.supW + cfg.confW) (l : List Pattern) (X : List Selector) :
    |fitRounded fl cfg df target l X - fitOf cfg df target l X| ≤ 6 * 2 ^ (-53 : Int) * fitOf cfg df target l X := by
  unfold fitRounded fitOf
  have hs : (0 : Rat) ≤ (freshTp df target l X : Rat) / ((freshTp df target l [] : Rat) + (freshFp df target l [] : Rat)) := by positivity
  have hc : (0 : Rat) ≤ confOf df target X := by unfold confOf; positivity
  generalize (freshTp df target l X : Rat) / ((freshTp df target l [] : Rat) + (freshFp df target l [] : Rat)) = s at *
  generalize confOf df target X = c at *
  generalize cfg.supW = v at *
  generalize cfg.confW = w at *
  have hL : (0 : Rat) < 1 - 2 ^ (-53 : Int) := by norm_num
  have hU : (0 : Rat) < 1 + 2 ^ (-53 : Int) := by norm_num
  have key : ∃ L U : Rat, L = 1 - 2 ^ (-53 : Int) ∧ U = 1 + 2 ^ (-53 : Int) := ⟨_, _, rfl, rfl⟩
  obtain ⟨L, U, eL, eU⟩ := key
  have flU : ∀ {q : Rat}, 0 ≤ q → fl q ≤ q * U := fun hq => by rw [eU]; exact (fl_le_of hq).1
  have flL : ∀ {q : Rat}, 0 ≤ q → q * L ≤ fl q := fun hq => by rw [eL]; exact (fl_le_of hq).2
  have nL : 0 < L := by rw [eL]; exact hL
  have nU : 0 < U := by rw [eU]; exact hU
  -- a product of a weight with a rounded number
  have prod : ∀ {a q : Rat}, 0 ≤ a → 0 ≤ q → a * q * (L * L) ≤ fl (a * fl q) ∧ fl (a * fl q) ≤ a * q * (U * U) := by
    intro a q ha hq
    have n := fl_nonneg hq
    have u1 := flU hq
    have l1 := flL hq
    have u2 := flU (mul_nonneg ha n)
    have l2 := flL (mul_nonneg ha n)
    constructor
    · calc a * q * (L * L) = a * (q * L) * L := by ring
        _ ≤ a * fl q * L := mul_le_mul_of_nonneg_right (mul_le_mul_of_nonneg_left l1 ha) nL.le
        _ ≤ _ := l2
    · calc fl (a * fl q) ≤ a * fl q * U := u2
        _ ≤ a * (q * U) * U := mul_le_mul_of_nonneg_right (mul_le_mul_of_nonneg_left u1 ha) nU.le
        _ = _ := by ring
  obtain ⟨p1, p2⟩ := prod h1 hs
  obtain ⟨q1, q2⟩ := prod h2 hc
  have np := fl_nonneg (mul_nonneg h1 (fl_nonneg hs))
  have nq := fl_nonneg (mul_nonneg h2 (fl_nonneg hc))
  generalize fl (v * fl s) = P at *
  generalize fl (w * fl c) = Q at *
  have nA : 0 ≤ v * s + w * c := add_nonneg (mul_nonneg h1 hs) (mul_nonneg h2 hc)
  have a1 : (v * s + w * c) * (L * L * L) ≤ fl (P + Q) :=
    calc (v * s + w * c) * (L * L * L) = (v * s * (L * L) + w * c * (L * L)) * L := by ring
      _ ≤ (P + Q) * L := mul_le_mul_of_nonneg_right (add_le_add p1 q1) nL.le
      _ ≤ _ := flL (add_nonneg np nq)
  have a2 : fl (P + Q) ≤ (v * s + w * c) * (U * U * U) :=
    calc fl (P + Q) ≤ (P + Q) * U := flU (add_nonneg np nq)
      _ ≤ (v * s * (U * U) + w * c * (U * U)) * U := mul_le_mul_of_nonneg_right (add_le_add p2 q2) nU.le
      _ = _ := by ring
  have nN := fl_nonneg (add_nonneg np nq)
  have d1 := flL hw.le
  have d2 := flU hw.le
  have nD := fl_pos hw
  generalize fl (P + Q) = N at *
  generalize fl (v + w) = D at *
  generalize v * s + w * c = A at *
  generalize v + w = W at *
  have hdiv : 0 ≤ N / D := div_nonneg nN nD.le
  have r1 : A / W * (L * L * L / U) ≤ N / D := by
    rw [div_mul_div_comm]
    exact div_le_div₀ nN a1 nD d2
  have r2 : N / D ≤ A / W * (U * U * U / L) := by
    rw [div_mul_div_comm]
    refine div_le_div₀ ?_ a2 (mul_pos hw nL) d1
    positivity
  have f1 : A / W * (L * L * L / U * L) ≤ fl (N / D) := by
    refine le_trans ?_ (flL hdiv)
    rw [← mul_assoc]
    exact mul_le_mul_of_nonneg_right r1 nL.le
  have f2 : fl (N / D) ≤ A / W * (U * U * U / L * U) := by
    refine (flU hdiv).trans ?_
    rw [← mul_assoc]
    exact mul_le_mul_of_nonneg_right r2 nU.le
  have nF : 0 ≤ A / W := div_nonneg nA hw.le
  have c1 : 1 - 6 * 2 ^ (-53 : Int) ≤ L * L * L / U * L := by rw [eL, eU]; norm_num
  have c2 : U * U * U / L * U ≤ 1 + 6 * 2 ^ (-53 : Int) := by rw [eL, eU]; norm_num
  have g1 := (mul_le_mul_of_nonneg_left c1 nF).trans f1
  have g2 := f2.trans (mul_le_mul_of_nonneg_left c2 nF)
  generalize A / W = F at *
  generalize fl (N / D) = G at *
  rw [abs_le]
  generalize (2 : Rat) ^ (-53 : Int) = e at *
  constructor
  · linarith only [g1]
  · linarith only [g2]

/-- C107 (selection, exactly): up to a relative error of `6 * 2^-53` on both sides, the `k`-th pattern is at least as fit as every individual of the first population of its turn. -/
theorem C107_fit_exactly {o : Nat → SDIGAChoice} (h : SDIGAReady cfg df target o) (hr : WeightsRounded fl cfg) (st : SDIGAState)
    {fuel : Nat} {st' : SDIGAState} (hfit : SDIGARounded.fit fl cfg o fuel st df target = some (.ok st')) (hfuel : ruleCount df target.1 < fuel)
    {k : Nat} {p : Pattern} (hk : st'.cases[k]? = some p) {c : Chrom} (hc : c ∈ (o k).pop) {q : Pattern}
    (hq : decode (chromDict (encodeDict df target.1)) c = .ok q) :
    (1 - 6 * 2 ^ (-53 : Int)) * fitOf cfg df target (st'.cases.take k) q.sels ≤ (1 + 6 * 2 ^ (-53 : Int)) * fitOf cfg df target (st'.cases.take k) p.sels := by
  have e := C107_as_fit_as_the_population C107_roundings.2.1 h hr st hfit hfuel hk hc hq
  obtain ⟨_, _, h1, h2, _⟩ := h.built.pos
  have e1 := C107_fitness_error (df := df) (target := target) h1 h2 h.weights (st'.cases.take k) q.sels
  have e2 := C107_fitness_error (df := df) (target := target) h1 h2 h.weights (st'.cases.take k) p.sels
  rw [abs_le] at e1 e2
  linarith only [e, e1.1, e2.2]

end

/-! ### concrete runs -/

example : WeightsRounded fl sdigaDemoCfg := ⟨fl_one, fl_one⟩
example : (endState (SDIGARounded.fit fl sdigaDemoCfg (fun _ => sdigaDemoChoice) 20 ⟨0, 0, [], [], [], 0, 0, 0, 0⟩ demoFrame (c!"t", c!"yes"))).map
    (fun st => (st.selected, st.unselected, st.file.map (fun x => x.fitness))) = some (1, 12, [5 / 8]) := by decide +kernel
example : demoFrame.nrows ≤ 2 ^ 26 := by decide +kernel

/-- five rows, four of them with the target -/
def fiveRows : Frame := ⟨5, [(c!"a", [.str c!"x", .str c!"x", .str c!"x", .str c!"x", .str c!"x"]), (c!"b", [.str c!"p", .str c!"p", .str c!"p", .str c!"p", .str c!"p"]),
  (c!"t", [.str c!"yes", .str c!"yes", .str c!"yes", .str c!"yes", .str c!"no"])]⟩

/-- two individuals without conditions, one generation without crossover and mutation -/
def fiveRowsChoice : SDIGAChoice where
  pop := [[0, 0], [0, 0]]
  sort := sdigaDemoSort
  gens := fun _ => ⟨none, none, none, sdigaDemoSort⟩

/-- `min_confidence = 0.8`: the float nearest to 4/5, which is greater than 4/5 -/
def fiveRowsCfg : SDIGAConfig := ⟨1, 2, 1/2, 1/4, 1, 1, fl (4 / 5), true⟩

theorem fiveRowsReady : SDIGAReady fiveRowsCfg fiveRows (c!"t", c!"yes") (fun _ => fiveRowsChoice) := by
  have hnom : NominalFrame fiveRows (c!"t", c!"yes") := by
    refine ⟨?_, by decide +kernel, ?_, by decide +kernel⟩
    · intro c hc; simp [fiveRows] at hc; rcases hc with rfl | rfl | rfl <;> rfl
    · intro c hc; simp [fiveRows] at hc
      rcases hc with rfl | rfl | rfl <;> simp
  have hfilter : fiveRows.cols.filter (fun e => e.1 ≠ (c!"t", c!"yes").1) =
      [(c!"a", [.str c!"x", .str c!"x", .str c!"x", .str c!"x", .str c!"x"]), (c!"b", [.str c!"p", .str c!"p", .str c!"p", .str c!"p", .str c!"p"])] := by decide +kernel
  have hmc : (0 : Rat) ≤ fl (4 / 5) := fl_nonneg (by norm_num)
  refine ⟨⟨1, 2, 1/2, 1/4, 1, 1, fl (4 / 5), true, true, (C64_constructor _ _ _ _ _ _ _ _ _).1.2 ⟨by simp, by norm_num, by norm_num, by norm_num, by norm_num, by norm_num, by norm_num, hmc⟩⟩,
    by decide +kernel, by decide, ⟨hnom, ?_, ?_⟩, ?_, ?_, ?_⟩
  · intro c hc _; simp [fiveRows] at hc
    rcases hc with rfl | rfl | rfl <;> decide +kernel
  · intro c hc _; simp [fiveRows] at hc
    rcases hc with rfl | rfl | rfl <;> decide +kernel
  · exact ⟨0, _, _, rfl, rfl, rfl⟩
  · rw [hfilter]; decide
  · intro k
    refine ⟨rfl, ?_, sdigaDemoSort_ok, ?_, ?_, ?_, ?_⟩
    · intro c hc
      show List.Forall₂ _ (fiveRows.cols.filter (fun e => e.1 ≠ (c!"t", c!"yes").1)) c
      rw [hfilter]
      simp only [fiveRowsChoice, List.mem_cons, List.not_mem_nil, or_false, or_self] at hc
      subst hc
      exact .cons (by decide +kernel) (.cons (by decide +kernel) .nil)
    · intro _ j a b h
      cases h
    · intro j i g h; cases h
    · intro j i g h; cases h
    · intro j; exact sdigaDemoSort_ok

/-- C107 (rounding lets rules in): with `min_confidence = 0.8` SDIGA returns a rule with 4 of 5 rows, although 4/5 is less than the float 0.8; with exact numbers
it would return nothing. -/
theorem C107_exact_confidence_fails : ∃ (cfg : SDIGAConfig) (df : Frame) (target : Str × Str) (o : Nat → SDIGAChoice) (st st' st'' : SDIGAState) (p : Pattern),
    SDIGAReady cfg df target o ∧ WeightsRounded fl cfg ∧ IsFloat cfg.minConf ∧
    (∀ fuel, ruleCount df target.1 < fuel → SDIGARounded.fit fl cfg o fuel st df target = some (.ok st')) ∧ p ∈ st'.cases ∧ confOf df target p.sels = 4 / 5 ∧ 4 / 5 < cfg.minConf ∧
    (∀ fuel, ruleCount df target.1 < fuel → SDIGA.fit cfg o fuel st df target = some (.ok st'')) ∧ st''.cases = [] := by
  have hw : WeightsRounded fl fiveRowsCfg := ⟨fl_one, fl_one⟩
  obtain ⟨st', h1, _⟩ := C107_results C107_roundings.2.1 fiveRowsReady hw ⟨0, 0, [], [], [], 0, 0, 0, 0⟩
  obtain ⟨st'', g1, _⟩ := C43_results fiveRowsReady ⟨0, 0, [], [], [], 0, 0, 0, 0⟩
  have hcount : ruleCount fiveRows c!"t" < 20 := by decide +kernel
  have e1 : (endState (SDIGARounded.fit fl fiveRowsCfg (fun _ => fiveRowsChoice) 20 ⟨0, 0, [], [], [], 0, 0, 0, 0⟩ fiveRows (c!"t", c!"yes"))).map
      (fun st => (st.cases.length, st.file.map (fun x => (x.tp, x.fp)))) = some (1, [(4, 1)]) := by decide +kernel
  have e2 : (endState (SDIGA.fit fiveRowsCfg (fun _ => fiveRowsChoice) 20 ⟨0, 0, [], [], [], 0, 0, 0, 0⟩ fiveRows (c!"t", c!"yes"))).map
      (fun st => st.cases.length) = some 0 := by decide +kernel
  have hrun := h1 20 hcount
  rw [hrun] at e1
  rw [g1 20 hcount] at e2
  simp only [endState, Option.map_some, Option.some.injEq, Prod.mk.injEq] at e1 e2
  obtain ⟨p, hp⟩ := List.length_eq_one_iff.1 e1.1
  have hfile := (C107_counters_and_file C107_roundings.2.1 fiveRowsReady hw _ hrun hcount).2.2.2.1 rfl
  have hl : st'.file.length = 1 := by rw [hfile.1, e1.1]
  obtain ⟨x, hx⟩ := List.length_eq_one_iff.1 hl
  obtain ⟨_, hline⟩ := hfile.2 0 p x (by rw [hp]; rfl) (by rw [hx]; rfl)
  rw [hx] at e1
  simp only [List.map_cons, List.map_nil, List.cons.injEq, Prod.mk.injEq, and_true] at e1
  refine ⟨fiveRowsCfg, fiveRows, (c!"t", c!"yes"), fun _ => fiveRowsChoice, _, st', st'', p, fiveRowsReady, hw, isFloat_fl _, h1, by rw [hp]; simp, ?_, by decide +kernel,
    g1, List.length_eq_zero_iff.1 e2⟩
  unfold confOf
  have t1 : x.tp = tpOf fiveRows (c!"t", c!"yes") p.sels := hline.tp
  have t2 : x.fp = fpOf fiveRows (c!"t", c!"yes") p.sels := hline.fp
  rw [← t1, ← t2, e1.2.1, e1.2.2]
  norm_num

end Verif

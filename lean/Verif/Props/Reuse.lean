import Verif.Model.Reuse
import Verif.Props.QFinder
import Verif.Props.IDSD
import Verif.Props.SDIGA
/-! C101: an object whose `fit` raised or was interrupted can be used again. -/
namespace Verif

/-! ## QFinder -/

namespace QFinder

/-- C101, QFinder: `fit` seen with the state of the object is `fit`. -/
theorem C101_qfinder_fit (cfg : QFConfig) (st st' : QFState) (df : Frame) (target : Str × Str) (e : PyErr) :
    (fitObj cfg st df target = (st', none) ↔ fit cfg st df target = .ok st') ∧
    ((∃ st', fitObj cfg st df target = (st', some e)) ↔ fit cfg st df target = .error e) := by
  unfold fitObj fit
  cases df.nominal with
  | false => simp
  | true =>
    simp only [Bool.not_true, Bool.false_eq_true, if_false]
    cases targetMask df target with
    | error e => simp
    | ok mask =>
      simp only
      cases bitsetLoop df target.1 (candidates cfg df target.1) [] with
      | error e => simp
      | ok bits =>
        simp only
        cases (bits.map (·.1)).mapM Pattern.generateFromStr with
        | error e => simp
        | ok cands =>
          simp only
          cases credTable cfg bits mask df.nrows with
          | error e => simp
          | ok table =>
            simp only
            cases cands.mapM (withCred table) with
            | error e => simp
            | ok es =>
              simp only
              cases selectTopK cfg (rankPatterns cfg es) with
              | error e => simp
              | ok top => simp

/-- C101, QFinder: a `fit` that raises leaves the top patterns of the last one that returned. -/
theorem C101_qfinder_kept {cfg : QFConfig} {st st' : QFState} {df : Frame} {target : Str × Str} {e : PyErr} (h : fitObj cfg st df target = (st', some e)) :
    st'.top = st.top := by
  unfold fitObj at h
  split at h
  · cases h; rfl
  · split at h
    · cases h; rfl
    · split at h
      · cases h; rfl
      · split at h
        · cases h; rfl
        · split at h
          · cases h; rfl
          · split at h
            · cases h; rfl
            · split at h
              · cases h; rfl
              · cases h

/-- C101, QFinder: the next `fit` does what it does with a new object, whatever the object went through. -/
theorem C101_qfinder_next (cfg : QFConfig) (st : QFState) (df : Frame) (target : Str × Str) :
    (fitObj cfg st df target).2 = (fitObj cfg .init df target).2 ∧
    ((fitObj cfg .init df target).2 = none → (fitObj cfg st df target).1 = (fitObj cfg .init df target).1) := by
  unfold fitObj
  repeat' split
  all_goals first | exact ⟨rfl, fun _ => rfl⟩ | exact ⟨rfl, fun h => by cases h⟩

/-- C101, QFinder: after any sequence of `fit`s the top patterns are those of a new object after the last one that returned (none if there is none). -/
theorem C101_qfinder_history (cfg : QFConfig) (calls : List (Frame × (Str × Str))) :
    (fitAll cfg calls .init).top =
      match (calls.reverse.filterMap (fun c => match fit cfg .init c.1 c.2 with | .ok r => some r.top | .error _ => none)) with
      | [] => []
      | t :: _ => t := by
  induction calls using List.reverseRecOn with
  | nil => rfl
  | append_singleton calls c ih =>
    unfold fitAll at ih ⊢
    rw [List.foldl_append, List.reverse_append]
    simp only [List.foldl_cons, List.foldl_nil, List.reverse_singleton, List.singleton_append, List.filterMap_cons]
    generalize List.foldl (fun st c => (fitObj cfg st c.1 c.2).1) .init calls = st at ih ⊢
    cases h : fit cfg .init c.1 c.2 with
    | ok r =>
      rw [((C101_qfinder_fit cfg st r c.1 c.2 .keyError).1).2 h]
    | error e =>
      obtain ⟨st', h'⟩ := ((C101_qfinder_fit cfg st st c.1 c.2 e).2).2 h
      rw [h']
      simp only
      rw [C101_qfinder_kept h', ih]

/-- a frame whose only column besides the target has a blank in its name -/
def blankFrame : Frame := ⟨2, [(c!"b p", [.str c!"x", .str c!"x"]), (c!"t", [.str c!"1", .str c!"0"])]⟩

open QFinderWitness in
/-- C101, QFinder: after a caught exception `unselected_subgroups` is wrong: it can be negative, since the candidates are those of the `fit` that raised and the top patterns are not. -/
theorem C101_qfinder_unselected_fails : ∃ (cfg : QFConfig) (df1 df2 : Frame) (target : Str × Str) (st1 st2 : QFState),
    fitObj cfg .init df1 target = (st1, none) ∧ fitObj cfg st1 df2 target = (st2, some .attributeError) ∧ 0 ≤ getUnselected st1 ∧ getUnselected st2 < 0 := by
  have h : (match fitObj cfgA .init dfA tA with
      | (st1, none) => (match fitObj cfgA st1 blankFrame tA with
        | (st2, some .attributeError) => decide (0 ≤ getUnselected st1 ∧ getUnselected st2 < 0)
        | _ => false)
      | _ => false) = true := by decide +kernel
  refine ⟨cfgA, dfA, blankFrame, tA, ?_⟩
  split at h
  · rename_i st1 h1
    split at h
    · rename_i st2 h2
      exact ⟨st1, st2, h1, h2, (of_decide_eq_true h).1, (of_decide_eq_true h).2⟩
    · cases h
  · cases h

open QFinderWitness in
/-- a `fit` that returns, one that raises, one that returns -/
example : (fitAll cfgA [(dfA, tA), (blankFrame, tA)] .init).top = (fitAll cfgA [(dfA, tA)] .init).top ∧ (fitAll cfgA [(dfA, tA)] .init).top ≠ [] := by
  decide +kernel

end QFinder

/-! ## IDSD -/

namespace IDSD
open Spec BSD

/-- what a history is about: nominal data with at least `n` rows -/
def Past.Fine (n : Nat) : Past → Prop
  | .fit df target => NominalFrame df target ∧ OccursIn df [targetSel target] ∧ n ≤ df.nrows
  | .stopped df target _ _ => NominalFrame df target ∧ n ≤ df.nrows

theorem past_head {cfg : IDSDConfig} {n : Nat} (h : List Past) (hh : ∀ p ∈ h, p.Fine n) :
    ∀ (st : IDSDState), (∀ a ∈ st.apps.head?, n ≤ a.2.length) → ∀ a ∈ (Past.run cfg h st).apps.head?, n ≤ a.2.length := by
  induction h with
  | nil => intro st hst; exact hst
  | cons p h ih =>
    intro st hst
    have e : Past.run cfg (p :: h) st = Past.run cfg h (Past.apply cfg st p) := rfl
    rw [e]
    apply ih (fun d hd => hh d (by simp [hd]))
    have hp := hh p (by simp)
    cases p with
    | fit df target =>
      have := history_head (cfg := cfg) (n := n) [(df, target)] (by intro c hc; rw [List.mem_singleton.1 hc]; exact hp) st hst
      exact this
    | stopped df target k rest =>
      obtain ⟨hf, hn⟩ := hp
      show ∀ a ∈ (List.foldl (fun d e => setApp d e.1 e.2) st.apps ((selectorPairs (reduceCategories cfg.ties cfg.cats df target.1) target.1).take k)).head?, n ≤ a.2.length
      apply head_fold _ hst
      intro e he
      rw [pairs_length (reduce_nominal hf (ties := cfg.ties) cfg.cats) e (List.mem_of_mem_take he), reduce_nrows]
      exact hn

/-- C101, IDSD: after any history of `fit`s that returned, raised or were interrupted at any point, on data sets that have at least as many rows, `fit` gives the list of a new
object, evaluating the same patterns in the same order; the counters go on. -/
theorem C101_idsd {cfg : IDSDConfig} {df : Frame} {target : Str × Str} (h : List Past) (hh : ∀ p ∈ h, p.Fine df.nrows)
    (hf : NominalFrame df target) (ht : OccursIn df [targetSel target]) (hnum : 0 < cfg.num) :
    ∃ r st', fit cfg .init df target = .ok r ∧ fit cfg (Past.run cfg h .init) df target = .ok st' ∧ st'.top = r.top ∧ st'.calls = r.calls ∧
      st'.visited = (Past.run cfg h .init).visited + r.visited ∧ st'.pruned = (Past.run cfg h .init).pruned + r.pruned := by
  obtain ⟨r, N, h1, _⟩ := idsd_fit (cfg := cfg) hf ht hnum (st := .init) (by simp [IDSDState.init])
  obtain ⟨A, _, h2⟩ := fit_shift (cfg := cfg) hf ht (Past.run cfg h .init) (past_head h hh .init (by simp [IDSDState.init]))
  rw [h1] at h2
  exact ⟨r, _, h1, h2, rfl, rfl, rfl, rfl⟩

open IDSDWitness in
/-- a history to which this applies: a `fit` that is stopped after one selector, whose list is not finished, and one that returns -/
example : ∀ p ∈ [Past.stopped dfA tA 1 { IDSDState.init with visited := 3 }, Past.fit dfA tA], p.Fine dfA.nrows := by
  intro p hp
  rcases List.mem_cons.1 hp with rfl | hp
  · exact ⟨nominalA, Nat.le_refl _⟩
  · rw [List.mem_singleton.1 hp]; exact ⟨nominalA, occursA, Nat.le_refl _⟩

end IDSD

/-! ## SDIGA -/

namespace SDIGA

/-- the state `r` of a new object, in an object that had counted `a` and `b` and has the file `F` -/
def goOn (cfg : SDIGAConfig) (a b : Nat) (F : List SDIGALine) (r : SDIGAState) : SDIGAState :=
  { r with selected := a + r.selected, unselected := b + r.unselected, file := if cfg.write then r.file else F }

section
variable {cfg : SDIGAConfig} {a b : Nat} {F : List SDIGALine} {rows : List ERow}

theorem fitness_goOn (st : SDIGAState) : fitness cfg (goOn cfg a b F st) = fitness cfg st := rfl
theorem measure_goOn (st : SDIGAState) : measure (goOn cfg a b F st) = measure st := rfl
theorem dropStep_goOn (st : SDIGAState) : dropStep (goOn cfg a b F st) = dropStep st := rfl

theorem searchLoop_goOn (st : SDIGAState) (tval : Str) (fuel : Nat) (m : Metrics) :
    searchLoop (goOn cfg a b F st) rows tval fuel m = searchLoop st rows tval fuel m := by
  induction fuel generalizing m with
  | zero => rfl
  | succ fuel ih =>
    rw [searchLoop, searchLoop, dropStep_goOn]
    cases (List.range m.chrom.length).foldlM (dropStep st rows tval m) (none, 0) with
    | error e => rfl
    | ok r =>
      obtain ⟨o, d⟩ := r
      cases o with
      | none => rfl
      | some m' => exact ih m'

theorem localSearch_goOn (st : SDIGAState) (tval : Str) (c : Chrom) :
    localSearch cfg (goOn cfg a b F st) rows tval c = localSearch cfg st rows tval c := by
  unfold localSearch
  simp only [measure_goOn, fitness_goOn, searchLoop_goOn]

theorem evolve_goOn (st : SDIGAState) (tval : Str) (dict : List (Str × List Val)) (o : SDIGAChoice) :
    evolve cfg (goOn cfg a b F st) rows tval dict o = evolve cfg st rows tval dict o := rfl

theorem turn_goOn (target : Str × Str) (dict : List (Str × List Val)) (o : SDIGAChoice) (st : SDIGAState) :
    turn cfg rows target dict o (goOn cfg a b F st) = (turn cfg rows target dict o st).map (fun r => (goOn cfg a b F r.1, r.2)) := by
  unfold turn
  rw [evolve_goOn]
  cases evolve cfg st rows target.2 dict o with
  | error e => rfl
  | ok best =>
    simp only [bind, Except.bind]
    have hst : { goOn cfg a b F st with unselected := (goOn cfg a b F st).unselected + 2 * cfg.maxGen + (cfg.popSize - 1) } =
        goOn cfg a b F { st with unselected := st.unselected + 2 * cfg.maxGen + (cfg.popSize - 1) } := by
      simp [goOn, Nat.add_assoc]
    rw [hst, localSearch_goOn]
    generalize localSearch cfg _ rows target.2 best.genes = found
    cases found with
    | error e => rfl
    | ok r =>
      obtain ⟨chrom, conf, fit, tp, fp⟩ := r
      simp only
      cases decode (chromDict dict) chrom with
      | error e => rfl
      | ok last =>
        simp only
        have hc : (goOn cfg a b F st).cases = st.cases := rfl
        rw [hc]
        split
        · rfl
        · split
          · rfl
          · simp only [pure, Except.pure, Except.map, goOn, Except.ok.injEq, Prod.mk.injEq, and_true, SDIGAState.mk.injEq, true_and, Nat.add_assoc]
            split <;> simp

theorem loop_goOn (target : Str × Str) (dict : List (Str × List Val)) (o : Nat → SDIGAChoice) (fuel k : Nat) (st : SDIGAState) :
    loop cfg rows target dict o fuel k (goOn cfg a b F st) = (loop cfg rows target dict o fuel k st).map (fun r => r.map (goOn cfg a b F)) := by
  induction fuel generalizing k st with
  | zero => rfl
  | succ fuel ih =>
    rw [loop, loop, turn_goOn]
    cases turn cfg rows target dict (o k) st with
    | error e => rfl
    | ok r =>
      obtain ⟨st', g⟩ := r
      cases g
      · rfl
      · exact ih (k + 1) st'

end

/-- C101, SDIGA: whatever the object went through (any state), with the same random choices `fit` stops after the same turns as with a new object (or does not stop, or raises
the same exception), with the same subgroups and the same file; the counters go on. -/
theorem C101_sdiga (cfg : SDIGAConfig) (o : Nat → SDIGAChoice) (fuel : Nat) (st new : SDIGAState) (hnew : new.selected = 0 ∧ new.unselected = 0) (df : Frame) (target : Str × Str) :
    (fit cfg o fuel new df target = none ∧ fit cfg o fuel st df target = none) ∨
    (∃ e, fit cfg o fuel new df target = some (.error e) ∧ fit cfg o fuel st df target = some (.error e)) ∨
    ∃ r st', fit cfg o fuel new df target = some (.ok r) ∧ fit cfg o fuel st df target = some (.ok st') ∧
      st'.cases = r.cases ∧ st'.file = (if cfg.write then r.file else st.file) ∧
      st'.selected = st.selected + r.selected ∧ st'.unselected = st.unselected + r.unselected := by
  have key : fit cfg o fuel st df target = (fit cfg o fuel new df target).map (fun r => r.map (goOn cfg st.selected st.unselected st.file)) := by
    unfold fit
    split
    · rfl
    · split
      · rfl
      · split
        · rfl
        · simp only
          rw [← loop_goOn]
          congr 1
          simp only [goOn, hnew.1, hnew.2, Nat.add_zero]
          congr 1
          split <;> rfl
  cases h : fit cfg o fuel new df target with
  | none => left; rw [key, h]; exact ⟨rfl, rfl⟩
  | some r =>
    right
    rw [key, h]
    cases r with
    | error e => left; exact ⟨e, rfl, rfl⟩
    | ok r => right; exact ⟨r, _, rfl, rfl, rfl, rfl, rfl, rfl⟩

/-- an object that was stopped in the middle of a `fit` -/
example : (endState (fit sdigaDemoCfg (fun _ => sdigaDemoChoice) 20 ⟨3, 5, [], [Pattern.new []], [], 1, 7, 9, 2⟩ Spec.demoFrame (c!"t", c!"yes"))).map
    (fun st => (st.selected, st.unselected)) = some (4, 17) := by decide +kernel

end SDIGA
end Verif

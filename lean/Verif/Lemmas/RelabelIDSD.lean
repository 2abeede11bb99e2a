import Verif.Lemmas.RelabelQFinder
import Verif.Lemmas.IDSDRefit
/-! Lemmas for C97: IDSD on data with other names. -/
namespace Verif
open Spec

/-- the entry with other names -/
def Spec.renameIDSD (ρ : Str → Str) (ν : Str → Str → Str) (e : IDSDEntry) : IDSDEntry := ⟨renamePattern ρ ν e.pat, e.rank, e.odds, e.cred⟩

namespace IDSD
open BSD

variable {ρ : Str → Str} {ν : Str → Str → Str}

/-- sorted selectors on texts -/
def Plain (p : Pattern) : Prop := Pattern.Sorted p.sels ∧ ∀ s ∈ p.sels, TextEq s

theorem renameIDSD_inj (hρ : Function.Injective ρ) (hν : ∀ a, Function.Injective (ν a)) {a b : IDSDEntry} (ha : Plain a.pat) (hb : Plain b.pat)
    (h : renameIDSD ρ ν a = renameIDSD ρ ν b) : a = b := by
  obtain ⟨p, r, o, c⟩ := a
  obtain ⟨q, r', o', c'⟩ := b
  simp only [renameIDSD, IDSDEntry.mk.injEq] at h
  obtain ⟨h1, rfl, rfl, rfl⟩ := h
  have := (QFinder.keeps_rename hρ hν).inj ⟨p, ⟨.nan, .nan, .nan, .nan, .nan, .nan⟩⟩ ⟨q, ⟨.nan, .nan, .nan, .nan, .nan, .nan⟩⟩ ha hb (by simp only [renameEntry, h1])
  simp only [QFEntry.mk.injEq] at this
  rw [this.1]

theorem erase_all_map (hρ : Function.Injective ρ) (hν : ∀ a, Function.Injective (ν a)) (R : List IDSDEntry) : ∀ (l : List IDSDEntry), (∀ e ∈ R, Plain e.pat) → (∀ e ∈ l, Plain e.pat) →
    (R.map (renameIDSD ρ ν)).foldl (fun l s => l.erase s) (l.map (renameIDSD ρ ν)) = (R.foldl (fun l s => l.erase s) l).map (renameIDSD ρ ν) ∧
    ∀ e ∈ R.foldl (fun l s => l.erase s) l, e ∈ l := by
  induction R with
  | nil => intro l _ _; exact ⟨rfl, fun e he => he⟩
  | cons a R ih =>
    intro l hR hl
    rw [List.map_cons, List.foldl_cons, List.foldl_cons, erase_map_on (fun b hb he => renameIDSD_inj hρ hν (hl b hb) (hR a (by simp)) he)]
    obtain ⟨h1, h2⟩ := ih (l.erase a) (fun e he => hR e (by simp [he])) (fun e he => hl e (List.mem_of_mem_erase he))
    exact ⟨h1, fun e he => List.mem_of_mem_erase (h2 e he)⟩

theorem topKUpdate_map (hρ : Function.Injective ρ) (hν : ∀ a, Function.Injective (ν a)) (num : Nat) {top : List IDSDEntry} {new : IDSDEntry} (ht : ∀ e ∈ top, Plain e.pat)
    (hn : Plain new.pat) :
    topKUpdate num (top.map (renameIDSD ρ ν)) (renameIDSD ρ ν new) = (topKUpdate num top new).map (renameIDSD ρ ν) ∧ ∀ e ∈ topKUpdate num top new, Plain e.pat := by
  have h1 : worseThanLast (top.map (renameIDSD ρ ν)) (renameIDSD ρ ν new) = worseThanLast top new := by
    unfold worseThanLast
    rw [List.getLast?_map]
    cases top.getLast? <;> rfl
  have hb : ∀ s, better (renameIDSD ρ ν new) (renameIDSD ρ ν s) = better new s := fun _ => rfl
  have hr : ∀ s ∈ top, redundant (renameIDSD ρ ν s).pat (renameIDSD ρ ν new).pat = redundant s.pat new.pat := fun s hs => by
    unfold redundant renameIDSD
    rw [SDIGA.renamePattern_refines hρ hν (ht s hs).2 hn.2, SDIGA.renamePattern_refines hρ hν hn.2 (ht s hs).2]
  have h2 : (top.map (renameIDSD ρ ν)).filter (fun s => redundant s.pat (renameIDSD ρ ν new).pat && better (renameIDSD ρ ν new) s) =
      (top.filter (fun s => redundant s.pat new.pat && better new s)).map (renameIDSD ρ ν) := by
    rw [List.filter_map]
    congr 1
    apply List.filter_congr
    intro s hs
    simp only [Function.comp_apply, hr s hs, hb]
  have h3 : (top.map (renameIDSD ρ ν)).any (fun s => redundant s.pat (renameIDSD ρ ν new).pat && !better (renameIDSD ρ ν new) s) =
      top.any (fun s => redundant s.pat new.pat && !better new s) := by
    rw [List.any_map, Bool.eq_iff_iff, List.any_eq_true, List.any_eq_true]
    refine exists_congr (fun s => and_congr_right (fun hs => ?_))
    simp only [Function.comp_apply, hr s hs, hb]
  unfold topKUpdate
  simp only
  rw [h1, h2, h3, List.length_map]
  generalize hR : top.filter (fun s => redundant s.pat new.pat && better new s) = R
  obtain ⟨e1, e2⟩ := erase_all_map hρ hν R top (fun e he => by rw [← hR] at he; exact ht e (List.mem_filter.1 he).1) ht
  rw [e1]
  generalize R.foldl (fun l s => l.erase s) top = K at e2
  have e3 : stableSort (fun a b => !keyLt a b) (K.map (renameIDSD ρ ν) ++ [renameIDSD ρ ν new]) = (stableSort (fun a b => !keyLt a b) (K ++ [new])).map (renameIDSD ρ ν) := by
    have := stableSort_map (le := fun a b => !keyLt a b) (le' := fun a b => !keyLt a b) (g := renameIDSD ρ ν) (fun a b => rfl) (K ++ [new])
    rw [← this]
    simp
  have e4 : ∀ e ∈ stableSort (fun a b => !keyLt a b) (K ++ [new]), Plain e.pat := by
    intro e he
    rcases List.mem_append.1 ((stableSort_perm _).mem_iff.1 he) with h | h
    · exact ht e (e2 e h)
    · rw [List.mem_singleton.1 h]; exact hn
  rw [e3, List.length_map]
  have e5 : (R.map (renameIDSD ρ ν)).isEmpty = R.isEmpty := by cases R <;> rfl
  rw [e5]
  split
  · exact ⟨rfl, ht⟩
  · split
    · split
      · exact ⟨List.map_dropLast.symm, fun e he => e4 e (List.mem_of_mem_dropLast he)⟩
      · exact ⟨rfl, e4⟩
    · exact ⟨rfl, fun e he => ht e (e2 e he)⟩

section
open Classical
variable {df : Frame} {target : Str × Str} {mask : List Bool} {cfg : IDSDConfig}

theorem counts_rename (hρ : Function.Injective ρ) (hν : ∀ a, Function.Injective (ν a)) (hf : NominalFrame df target) {X Y : List Selector} (hX : ∀ s ∈ X, TextEq s)
    (hY : ∀ t, t ∈ Y ↔ ∃ s ∈ X, renameSel ρ ν s = t) :
    tpOf (renameFrame ρ ν df) (renameTarget ρ ν target) Y = tpOf df target X ∧ fpOf (renameFrame ρ ν df) (renameTarget ρ ν target) Y = fpOf df target X := by
  have hR := renameFrame_relabelled hρ hν hf
  have a := ren_tp hR hf hX
  have b := ren_fp hR hf hX
  rw [one_mul] at a b
  have hc : ∀ i, Covers (renameFrame ρ ν df) Y i ↔ Covers (renameFrame ρ ν df) (ren ρ ν X) i := fun i => by
    unfold Covers
    constructor
    · exact fun h s hs => h s ((hY s).2 ((mem_ren hX s).1 hs))
    · exact fun h s hs => h s ((mem_ren hX s).2 ((hY s).1 hs))
  constructor
  · rw [← a]; unfold tpOf; simp only [hc]
  · rw [← b]; unfold fpOf; simp only [hc]

theorem covBits_rename (hρ : Function.Injective ρ) (hν : ∀ a, Function.Injective (ν a)) (hf : NominalFrame df target) {X Y : List Selector} (hX : ∀ s ∈ X, TextEq s)
    (hY : ∀ t, t ∈ Y ↔ ∃ s ∈ X, renameSel ρ ν s = t) : covBits (renameFrame ρ ν df) Y = covBits df X :=
  QFinder.rowBits_rename hρ hν hf hX hY

theorem odds_rename (hρ : Function.Injective ρ) (hν : ∀ a, Function.Injective (ν a)) (hf : NominalFrame df target) {X Y : List Selector} (hX : ∀ s ∈ X, TextEq s)
    (hY : ∀ t, t ∈ Y ↔ ∃ s ∈ X, renameSel ρ ν s = t) : oddsOf (renameFrame ρ ν df) (renameTarget ρ ν target) Y = oddsOf df target X := by
  obtain ⟨a, b⟩ := counts_rename hρ hν hf hX hY
  obtain ⟨c, d⟩ := counts_rename hρ hν hf (X := []) (Y := []) (by simp) (by simp)
  unfold oddsOf
  rw [a, b, c, d]

theorem contribOf_rename (hρ : Function.Injective ρ) (hν : ∀ a, Function.Injective (ν a)) (hf : NominalFrame df target) {p : Pattern} (hp : Plain p) :
    contribOf (renameFrame ρ ν df) (renameTarget ρ ν target) (renamePattern ρ ν p) = contribOf df target p := by
  obtain ⟨hs, ht⟩ := hp
  have hp := QFinder.rename_perm hρ hν hs ht
  have hs' : Pattern.Sorted (renamePattern ρ ν p).sels := (sorted_iff_lt (ren_text ht)).1 (ren_sorted ht)
  unfold contribOf
  rw [QFinder.compute_perm (o' := fun q => oddsOf (renameFrame ρ ν df) (renameTarget ρ ν target) q.sels) (o := fun q => oddsOf df target q.sels) (p' := renamePattern ρ ν p) (p := p)]
  · have := hp.length_eq
    rw [List.length_map] at this
    exact this
  · exact odds_rename hρ hν hf ht (fun t => mem_ren ht t)
  · refine (hp.map _).trans ?_
    rw [List.map_map]
    refine List.Perm.of_eq (List.map_congr_left (fun s hsp => ?_))
    simp only [Function.comp_apply]
    obtain ⟨_, r1⟩ := QFinder.remove_text hs ht hsp
    obtain ⟨_, r2⟩ := QFinder.remove_text hs' (ren_text ht) (s := renameSel ρ ν s) ((mem_ren ht _).2 ⟨s, hsp, rfl⟩)
    refine odds_rename hρ hν hf (fun t h => ht t ((r1 t).1 h).1) (fun t => ?_)
    rw [r2]
    constructor
    · rintro ⟨h1, h2⟩
      obtain ⟨u, hu, rfl⟩ := (mem_ren ht t).1 h1
      exact ⟨u, (r1 u).2 ⟨hu, fun e => h2 (by rw [e])⟩, rfl⟩
    · rintro ⟨u, hu, rfl⟩
      obtain ⟨h1, h2⟩ := (r1 u).1 hu
      exact ⟨(mem_ren ht _).2 ⟨u, h1, rfl⟩, fun e => h2 (rename_inj hρ hν (ht u h1) (ht s hsp) e)⟩

theorem entryOf_rename (hρ : Function.Injective ρ) (hν : ∀ a, Function.Injective (ν a)) (hf : NominalFrame df target) {p : Pattern} (hp : Plain p) :
    entryOf cfg (renameFrame ρ ν df) (renameTarget ρ ν target) (renamePattern ρ ν p) = renameIDSD ρ ν (entryOf cfg df target p) := by
  have hm : ∀ t, t ∈ (renamePattern ρ ν p).sels ↔ ∃ s ∈ p.sels, renameSel ρ ν s = t := fun t => mem_ren hp.2 t
  obtain ⟨a, b⟩ := counts_rename hρ hν hf hp.2 hm
  obtain ⟨c, d⟩ := counts_rename hρ hν hf (X := []) (Y := []) (by simp) (by simp)
  have h1 : covOf (renameFrame ρ ν df) (renameTarget ρ ν target) (renamePattern ρ ν p).sels = covOf df target p.sels := by
    unfold covOf
    rw [a, b]
    rfl
  have h2 : pvalOf cfg (renameFrame ρ ν df) (renameTarget ρ ν target) (renamePattern ρ ν p).sels = pvalOf cfg df target p.sels := by
    unfold pvalOf
    rw [a, b, c, d]
  have h3 := odds_rename hρ hν hf hp.2 hm
  have h4 := contribOf_rename hρ hν hf hp
  have h5 : criteriaOf cfg (renameFrame ρ ν df) (renameTarget ρ ν target) (renamePattern ρ ν p) = criteriaOf cfg df target p := by
    unfold criteriaOf
    rw [h1, h2, h3, h4]
  have h6 : rankOf cfg (renameFrame ρ ν df) (renameTarget ρ ν target) (renamePattern ρ ν p) = rankOf cfg df target p := by
    unfold rankOf
    rw [h5]
  have h7 : credOf cfg (renameFrame ρ ν df) (renameTarget ρ ν target) (renamePattern ρ ν p) = credOf cfg df target p := by
    unfold credOf
    rw [h6, h1, h2, h3, h4]
  unfold entryOf renameIDSD
  simp only
  rw [h6, h7]

/-- the state with other names and the appearances `A` -/
def renameState (ρ : Str → Str) (ν : Str → Str → Str) (A : List (Selector × Bits)) (st : IDSDState) : IDSDState :=
  { st with top := st.top.map (renameIDSD ρ ν), calls := st.calls.map (renamePattern ρ ν), apps := A }

theorem lastRank_rename (top : List IDSDEntry) : lastRankPos (top.map (renameIDSD ρ ν)) = lastRankPos top := by
  unfold lastRankPos
  rw [List.getLast?_map]
  cases top.getLast? <;> rfl

theorem plain_new {X : List Selector} (hX : ∀ s ∈ X, TextEq s) : Plain (Pattern.new X) := ⟨(new_text hX).1, fun s hs => hX s ((mem_new hX s).1 hs)⟩

theorem renamed_mem {X : List Selector} (t : Selector) : t ∈ X.map (renameSel ρ ν) ↔ ∃ s ∈ X, renameSel ρ ν s = t := List.mem_map

theorem visit_rename (hρ : Function.Injective ρ) (hν : ∀ a, Function.Injective (ν a)) (hf : NominalFrame df target) (hm : MaskOK df target mask)
    (hm' : MaskOK (renameFrame ρ ν df) (renameTarget ρ ν target) mask) (hn : 0 < df.nrows)
    {A : List (Selector × Bits)} (hA : AppsOK (renameFrame ρ ν df) (renameTarget ρ ν target) A) (c : Nat) {X : List Selector} (hX : ∀ s ∈ X, TextEq s)
    (hs : ∀ s ∈ X, s ∈ (selectorPairs df target.1).map (·.1)) (hs' : ∀ s ∈ X, renameSel ρ ν s ∈ (selectorPairs (renameFrame ρ ν df) (ρ target.1)).map (·.1))
    (st : IDSDState) (ha : AppsOK df target st.apps) (hp : ∀ e ∈ st.top, Plain e.pat) :
    visit cfg c (tpOf df target []) (fpOf df target []) mask (Pattern.new (X.map (renameSel ρ ν))) (covBits df X) (renameState ρ ν A st) =
      (visit cfg c (tpOf df target []) (fpOf df target []) mask (Pattern.new X) (covBits df X) st).map (fun r => (renameState ρ ν A r.1, r.2)) ∧
    ∀ r, visit cfg c (tpOf df target []) (fpOf df target []) mask (Pattern.new X) (covBits df X) st = .ok r → ∀ e ∈ r.1.top, Plain e.pat := by
  have hpl := plain_new hX
  have hren : Pattern.new (X.map (renameSel ρ ν)) = renamePattern ρ ν (Pattern.new X) := SDIGA.new_rename hX
  have hlen : (renamePattern ρ ν (Pattern.new X)).len = (Pattern.new X).len := by
    have := (QFinder.rename_perm (ρ := ρ) (ν := ν) hρ hν hpl.1 hpl.2).length_eq
    rw [List.length_map] at this
    exact this
  obtain ⟨c0, d0⟩ := counts_rename (ρ := ρ) (ν := ν) hρ hν hf (X := []) (Y := []) (by simp) (by simp)
  obtain ⟨u1, u2⟩ := topKUpdate_map (ρ := ρ) (ν := ν) hρ hν cfg.num (new := entryOf cfg df target (Pattern.new X)) hp hpl
  have hh : ∀ st0 : IDSDState, st0.apps = st.apps → st0.top = st.top →
      handle cfg (tpOf df target []) (fpOf df target []) mask (Pattern.new X) (covBits df X) st0 =
        .ok { st0 with top := topKUpdate cfg.num st0.top (entryOf cfg df target (Pattern.new X)), calls := st0.calls ++ [Pattern.new X] } ∧
      handle cfg (tpOf df target []) (fpOf df target []) mask (renamePattern ρ ν (Pattern.new X)) (covBits df X) (renameState ρ ν A st0) =
        .ok (renameState ρ ν A { st0 with top := topKUpdate cfg.num st0.top (entryOf cfg df target (Pattern.new X)), calls := st0.calls ++ [Pattern.new X] }) := by
    intro st0 h0 h0'
    constructor
    · rw [covBits_congr (df := df) (fun s => (mem_new hX s).symm)]
      exact handle_eq cfg hm hn (fun s h => hs s ((mem_new hX s).1 h)) _ (by rw [h0]; exact ha)
    · rw [← covBits_rename hρ hν hf hX (Y := (renamePattern ρ ν (Pattern.new X)).sels) (fun t => by
          rw [← hren, mem_new (fun s hs => by obtain ⟨u, hu, rfl⟩ := List.mem_map.1 hs; exact (hX u hu).rename), List.mem_map]), ← c0, ← d0,
        handle_eq cfg hm' hn ?_ _ hA, entryOf_rename hρ hν hf hpl]
      · simp only [renameState, List.map_append, List.map_cons, List.map_nil, h0', u1]
      · intro s h
        obtain ⟨u, hu, rfl⟩ := (mem_ren hpl.2 s).1 h
        exact hs' u ((mem_new hX u).1 hu)
  rw [hren]
  unfold visit
  simp only
  rw [hlen]
  cases Quality.coverage [(kTp, ((covBits df X).ones : Rat)), (kFp, 0), (kTP, ((tpOf df target [] : Nat) : Rat)), (kFP, ((fpOf df target [] : Nat) : Rat))] with
  | error e => exact ⟨rfl, fun r hr => by cases hr⟩
  | ok cov =>
    simp only
    by_cases h0 : cov = 0
    · simp only [if_pos h0]
      exact ⟨rfl, fun r hr => by cases hr; exact hp⟩
    · simp only [if_neg h0]
      by_cases h1 : st.top.length = cfg.num ∧ lastRankPos st.top = true ∧ ¬ (cov ≥ cfg.covT)
      · have h1' : (renameState ρ ν A st).top.length = cfg.num ∧ lastRankPos (renameState ρ ν A st).top = true ∧ ¬ (cov ≥ cfg.covT) := by
          simp only [renameState, List.length_map, lastRank_rename]; exact h1
        rw [if_pos h1]
        refine ⟨(if_pos h1').trans rfl, fun r hr => ?_⟩
        simp only [Except.ok.injEq] at hr
        subst hr
        exact hp
      · have h1' : ¬ ((renameState ρ ν A st).top.length = cfg.num ∧ lastRankPos (renameState ρ ν A st).top = true ∧ ¬ (cov ≥ cfg.covT)) := by
          simp only [renameState, List.length_map, lastRank_rename]; exact h1
        rw [if_neg h1]
        by_cases h2 : (Pattern.new X).len = c
        · simp only [if_pos h2]
          obtain ⟨g1, g2⟩ := hh { st with visited := st.visited + 1, nonUnique := st.nonUnique + 1 } rfl rfl
          rw [g1]
          refine ⟨(if_neg h1').trans ?_, fun r hr => ?_⟩
          · have := g2
            simp only [renameState] at this ⊢
            rw [this]
            rfl
          · cases hr
            exact u2
        · simp only [if_neg h2]
          refine ⟨(if_neg h1').trans rfl, fun r hr => ?_⟩
          cases hr
          exact hp
/-- the pairs of the renamed frame -/
theorem selectorPairs_rename (hρ : Function.Injective ρ) (hν : ∀ a, Function.Injective (ν a)) (hf : NominalFrame df target) :
    (selectorPairs (renameFrame ρ ν df) (ρ target.1)).map (·.1) = ((selectorPairs df target.1).map (·.1)).map (renameSel ρ ν) := by
  unfold selectorPairs
  rw [QFinder.otherCols_rename hρ, List.flatMap_map, List.map_flatMap, List.map_flatMap, List.map_flatMap]
  apply List.flatMap_congr
  intro c hm
  rw [mem_otherCols] at hm
  have hu : pyUnique (c.2.map (renameVal (ν c.1))) = (pyUnique c.2).map (renameVal (ν c.1)) := QFinder.pyUnique_map (renameVal_inj (hν c.1) (hf.texts c hm.1))
  simp only
  rw [hu, List.map_map, List.map_map, List.map_map, List.map_map]
  rfl

theorem growLoop_rename (hρ : Function.Injective ρ) (hν : ∀ a, Function.Injective (ν a)) (hf : NominalFrame df target) (hm : MaskOK df target mask)
    (hm' : MaskOK (renameFrame ρ ν df) (renameTarget ρ ν target) mask) (hn : 0 < df.nrows)
    {A : List (Selector × Bits)} (hA : AppsOK (renameFrame ρ ν df) (renameTarget ρ ν target) A) (c : Nat) (l : List Selector)
    (hl : ∀ s ∈ l, s ∈ (selectorPairs df target.1).map (·.1)) :
    ∀ (Y : List Selector) (st : IDSDState), (∀ s ∈ Y, s ∈ (selectorPairs df target.1).map (·.1)) → AppsOK df target st.apps → (∀ e ∈ st.top, Plain e.pat) →
    growLoop cfg c (tpOf df target []) (fpOf df target []) mask (l.map (renameSel ρ ν)) (Pattern.new (Y.map (renameSel ρ ν))) (covBits df Y) (renameState ρ ν A st) =
      (growLoop cfg c (tpOf df target []) (fpOf df target []) mask l (Pattern.new Y) (covBits df Y) st).map (renameState ρ ν A) ∧
    ∀ r, growLoop cfg c (tpOf df target []) (fpOf df target []) mask l (Pattern.new Y) (covBits df Y) st = .ok r → ∀ e ∈ r.top, Plain e.pat := by
  have htext : ∀ s ∈ (selectorPairs df target.1).map (·.1), TextEq s := fun s hs => ((mem_sels hf).1 hs).1.2
  have hren : ∀ s ∈ (selectorPairs df target.1).map (·.1), renameSel ρ ν s ∈ (selectorPairs (renameFrame ρ ν df) (ρ target.1)).map (·.1) := fun s hs => by
    rw [selectorPairs_rename hρ hν hf]; exact List.mem_map.2 ⟨s, hs, rfl⟩
  induction l with
  | nil => intro Y st _ _ hp; exact ⟨rfl, fun r hr => by cases hr; exact hp⟩
  | cons s rest ih =>
    intro Y st hY ha hp
    have hsm := hl s (by simp)
    have hY' : ∀ t ∈ Y ++ [s], t ∈ (selectorPairs df target.1).map (·.1) := fun t ht => by
      rcases List.mem_append.1 ht with h | h
      · exact hY t h
      · rw [List.mem_singleton.1 h]; exact hsm
    have ih := ih (fun t ht => hl t (by simp [ht]))
    have tY : ∀ t ∈ Y, TextEq t := fun t ht => htext t (hY t ht)
    have tY' : ∀ t ∈ Y ++ [s], TextEq t := fun t ht => htext t (hY' t ht)
    rw [List.map_cons, growLoop, growLoop]
    have e1 : (renameState ρ ν A st).apps.lookup (renameSel ρ ν s) = some (covBits df [s]) := by
      have := hA.lookup (renameSel ρ ν s) (hren s hsm)
      rw [covBits_rename hρ hν hf (X := [s]) (Y := [renameSel ρ ν s]) (by simpa using htext s hsm) (by simp [eq_comm])] at this
      exact this
    rw [e1, ha.lookup s hsm]
    simp only
    rw [add_new tY (htext s hsm), add_new (fun t ht => by obtain ⟨u, hu, rfl⟩ := List.mem_map.1 ht; exact (tY u hu).rename) (htext s hsm).rename, alignAnd_covBits]
    have e2 : Y.map (renameSel ρ ν) ++ [renameSel ρ ν s] = (Y ++ [s]).map (renameSel ρ ν) := by simp
    rw [e2]
    obtain ⟨v1, v2⟩ := visit_rename (cfg := cfg) hρ hν hf hm hm' hn hA c tY' hY' (fun t ht => hren t (hY' t ht)) st ha hp
    rw [v1]
    cases hv : visit cfg c (tpOf df target []) (fpOf df target []) mask (Pattern.new (Y ++ [s])) (covBits df (Y ++ [s])) st with
    | error e => exact ⟨rfl, fun r hr => by cases hr⟩
    | ok r =>
      obtain ⟨st1, g⟩ := r
      have ha1 : AppsOK df target st1.apps := by rw [visit_apps hv]; exact ha
      have hp1 := v2 _ hv
      cases g
      · exact ih Y st1 hY ha1 hp1
      · simp only [Except.map]
        obtain ⟨i1, i2⟩ := ih (Y ++ [s]) st1 hY' ha1 hp1
        rw [i1]
        cases hg : growLoop cfg c (tpOf df target []) (fpOf df target []) mask rest (Pattern.new (Y ++ [s])) (covBits df (Y ++ [s])) st1 with
        | error e => exact ⟨rfl, fun r hr => by cases hr⟩
        | ok st2 =>
          simp only [Except.map]
          obtain ⟨j1, j2⟩ := ih Y st2 hY (by rw [growLoop_apps rest hg]; exact ha1) (i2 _ hg)
          exact ⟨j1, j2⟩

theorem deepen_rename (hρ : Function.Injective ρ) (hν : ∀ a, Function.Injective (ν a)) (hf : NominalFrame df target) (hm : MaskOK df target mask)
    (hm' : MaskOK (renameFrame ρ ν df) (renameTarget ρ ν target) mask) (hn : 0 < df.nrows)
    {A : List (Selector × Bits)} (hA : AppsOK (renameFrame ρ ν df) (renameTarget ρ ν target) A) (cs : List Nat) :
    ∀ (st : IDSDState), AppsOK df target st.apps → (∀ e ∈ st.top, Plain e.pat) →
    deepen cfg (tpOf df target []) (fpOf df target []) mask (((selectorPairs df target.1).map (·.1)).map (renameSel ρ ν)) df.nrows cs (renameState ρ ν A st) =
      (deepen cfg (tpOf df target []) (fpOf df target []) mask ((selectorPairs df target.1).map (·.1)) df.nrows cs st).map (renameState ρ ν A) := by
  induction cs with
  | nil => intro st _ _; rfl
  | cons c cs ih =>
    intro st ha hp
    rw [deepen, deepen]
    unfold growTree
    rw [replicate_eq_covBits]
    obtain ⟨v1, v2⟩ := visit_rename (cfg := cfg) hρ hν hf hm hm' hn hA c (X := []) (by simp) (by simp) (by simp) st ha hp
    rw [List.map_nil] at v1
    rw [v1]
    cases hv : visit cfg c (tpOf df target []) (fpOf df target []) mask (Pattern.new []) (covBits df []) st with
    | error e => rfl
    | ok r =>
      obtain ⟨st1, g⟩ := r
      have ha1 : AppsOK df target st1.apps := by rw [visit_apps hv]; exact ha
      have hp1 := v2 _ hv
      cases g
      · simp only [Except.map]
        have := ih st1 ha1 hp1
        exact this
      · simp only [Except.map]
        obtain ⟨g1, g2⟩ := growLoop_rename (cfg := cfg) hρ hν hf hm hm' hn hA c _ (fun s h => h) [] st1 (by simp) ha1 hp1
        rw [List.map_nil] at g1
        rw [g1]
        cases hg : growLoop cfg c (tpOf df target []) (fpOf df target []) mask ((selectorPairs df target.1).map (·.1)) (Pattern.new []) (covBits df []) st1 with
        | error e => rfl
        | ok st2 =>
          simp only [Except.map]
          have := ih st2 (by rw [growLoop_apps _ hg]; exact ha1) (g2 _ hg)
          exact this

theorem reduce_id {ties : TieOrder} {cats : Int} {df : Frame} {t : Str} (h : ∀ c ∈ df.cols, c.1 ≠ t → (c.2.dedup.length : Int) ≤ cats ∨ cats = -1) :
    reduceCategories ties cats df t = df := by
  unfold reduceCategories
  split
  · rfl
  · rename_i hc
    have : df.cols.map (fun c => if c.1 = t then c else (c.1, reduceColumn ties cats c.2)) = df.cols := by
      conv_rhs => rw [← List.map_id df.cols]
      apply List.map_congr_left
      intro c hm
      split
      · rfl
      · rename_i hne
        have : ((pyUnique c.2).length : Int) ≤ cats := by
          rw [pyUnique_dedup]
          exact (h c hm hne).resolve_right hc
        unfold reduceColumn
        simp only
        rw [if_pos this]
        rfl
    rw [this]

theorem fit_rename (hρ : Function.Injective ρ) (hν : ∀ a, Function.Injective (ν a)) (hf : NominalFrame df target)
    (hc : ∀ c ∈ df.cols, c.1 ≠ target.1 → (c.2.dedup.length : Int) ≤ cfg.cats ∨ cfg.cats = -1) :
    ∃ A, fit cfg .init (renameFrame ρ ν df) (renameTarget ρ ν target) = (fit cfg .init df target).map (renameState ρ ν A) := by
  have hR := renameFrame_relabelled hρ hν hf
  have hf' := relabel_nominal hR hf
  have hn' : (renameFrame ρ ν df).nrows = df.nrows := rfl
  obtain ⟨mask, hm0, hm1, hm2⟩ := targetMask_ok hf
  obtain ⟨mask', hm0', hm1', hm2'⟩ := targetMask_ok hf'
  have hmm : mask' = mask := by
    have hb := QFinder.targetBits_rename (ν := ν) hρ hν hf
    have key : ∀ (d : Frame) (t : Str × Str) (m : List Bool), m.length = d.nrows → (∀ i, m[i]? = some true ↔ MatchesAt d (targetSel t) i) → m = covBits d [targetSel t] := by
      intro d t m h1 h2
      apply List.ext_getElem?
      intro i
      by_cases hi : i < d.nrows
      · have hi' : i < m.length := by omega
        have h2 := h2 i
        rw [List.getElem?_eq_getElem hi'] at h2 ⊢
        simp only [covBits, List.getElem?_map, List.getElem?_range hi, Option.map_some, Option.some.injEq] at h2 ⊢
        rw [Bool.eq_iff_iff, h2, decide_eq_true_iff]
        simp [Covers]
      · rw [List.getElem?_eq_none (by omega), List.getElem?_eq_none (by rw [covBits_length]; omega)]
    rw [key _ _ _ hm1 hm2, key _ _ _ hm1' hm2']
    exact hb
  subst hmm
  have hc' : ∀ c ∈ (renameFrame ρ ν df).cols, c.1 ≠ (renameTarget ρ ν target).1 → (c.2.dedup.length : Int) ≤ cfg.cats ∨ cfg.cats = -1 := by
    intro c hm hne
    obtain ⟨d, hd, rfl⟩ := List.mem_map.1 hm
    have hdt : d.1 ≠ target.1 := fun e => hne (by simp [renameTarget, e])
    have hu : pyUnique (d.2.map (renameVal (ν d.1))) = (pyUnique d.2).map (renameVal (ν d.1)) := QFinder.pyUnique_map (renameVal_inj (hν d.1) (hf.texts d hd))
    have := hc d hd hdt
    rw [← pyUnique_dedup] at this ⊢
    simp only
    rw [hu, List.length_map]
    exact this
  unfold fit
  rw [nominal_of hf, nominal_of hf', hm0, hm0']
  simp only [Bool.not_true, Bool.false_eq_true, if_false]
  by_cases ht : mask'.any id = true
  · rw [ht]
    simp only [Bool.not_true, Bool.false_eq_true, if_false]
    rw [reduce_id hc, reduce_id hc', hn']
    have ht := (matches_iff ⟨hm1, hm2⟩).1 ht
    have hn : 0 < df.nrows := by obtain ⟨i, hi, _⟩ := ht; omega
    obtain ⟨hc1, hc2⟩ := count_true_mask hf hm1 hm2
    have hA := appsOK_fold hf' (d := []) (by simp)
    refine ⟨(selectorPairs (renameFrame ρ ν df) (renameTarget ρ ν target).1).foldl (fun d e => setApp d e.1 e.2) [], ?_⟩
    rw [hc2, hc1]
    have hsel : (selectorPairs (renameFrame ρ ν df) (renameTarget ρ ν target).1).map (·.1) = ((selectorPairs df target.1).map (·.1)).map (renameSel ρ ν) := selectorPairs_rename hρ hν hf
    have hmc : maxComplexity cfg (renameFrame ρ ν df) = maxComplexity cfg df := by unfold maxComplexity renameFrame; rw [List.length_map]
    rw [hsel, hmc, ← deepen_rename hρ hν hf ⟨hm1, hm2⟩ ⟨hm1', hm2'⟩ hn hA _ _ (appsOK_fold hf (d := []) (by simp)) (by simp)]
    rfl
  · rw [Bool.eq_false_iff.2 ht]
    exact ⟨[], rfl⟩
end
end IDSD
end Verif

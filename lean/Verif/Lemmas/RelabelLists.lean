import Verif.Lemmas.ShuffleLists
import Verif.Lemmas.ListGain
import Verif.Props.Relabel
/-! Lemmas for C97: the subgroup-list algorithms on data with other names. -/
namespace Verif
open Spec

/-- the subgroup with other names -/
def Spec.renameSubgroup (ρ : Str → Str) (ν : Str → Str → Str) (s : Subgroup) : Subgroup := ⟨renamePattern ρ ν s.description, renameSel ρ ν s.target⟩

/-- the candidate with other names and the same rows -/
def Spec.renameCand (ρ : Str → Str) (ν : Str → Str → Str) (c : Cand) : Cand := ⟨renameSubgroup ρ ν c.sub, c.pos, c.neg⟩

/-- the subgroup list with other names and the same rows -/
def Spec.renameList (ρ : Str → Str) (ν : Str → Str → Str) (l : SubgroupList) : SubgroupList := { l with subs := l.subs.map (renameSubgroup ρ ν) }

/-- the description is a sorted list of selectors `attribute = text`, and the target is one of them -/
structure Spec.TextSubgroup (s : Subgroup) : Prop where
  texts : ∀ x ∈ s.description.sels, TextEq x
  sorted : s.description.sels.Pairwise (fun a b => a.lt b = true)
  target : TextEq s.target

variable {ρ : Str → Str} {ν : Str → Str → Str}

theorem renameSubgroup_refines (hρ : Function.Injective ρ) (hν : ∀ a, Function.Injective (ν a)) {s t : Subgroup} (hs : TextSubgroup s) (ht : TextSubgroup t) (b : Bool) :
    (renameSubgroup ρ ν s).isRefinement (renameSubgroup ρ ν t) b = s.isRefinement t b := by
  have hm : ∀ {u : Subgroup}, TextSubgroup u → ∀ x, x ∈ (renamePattern ρ ν u.description).sels ↔ ∃ y ∈ u.description.sels, renameSel ρ ν y = x := fun hu x => mem_ren hu.texts x
  have hmem : ∀ {u v : Subgroup}, TextSubgroup u → TextSubgroup v → ∀ y ∈ u.description.sels, (renameSel ρ ν y ∈ (renamePattern ρ ν v.description).sels ↔ y ∈ v.description.sels) := by
    intro u v hu hv y hy
    rw [hm hv]
    constructor
    · rintro ⟨z, hz, he⟩
      exact rename_inj hρ hν (hv.texts z hz) (hu.texts y hy) he ▸ hz
    · exact fun hz => ⟨y, hz, rfl⟩
  unfold Subgroup.isRefinement
  congr 1
  · apply Bool.eq_iff_iff.2
    unfold renameSubgroup
    simp only
    rw [Pattern.isRefinement_iff, Pattern.isRefinement_iff]
    refine and_congr ?_ (or_congr_left ?_)
    · constructor
      · intro h x hx
        exact (hmem hs ht x hx).1 (h _ ((hm hs _).2 ⟨x, hx, rfl⟩))
      · intro h x hx
        obtain ⟨y, hy, rfl⟩ := (hm hs x).1 hx
        exact (hmem hs ht y hy).2 (h y hy)
    · constructor
      · rintro ⟨x, hx, hn⟩
        obtain ⟨y, hy, rfl⟩ := (hm ht x).1 hx
        exact ⟨y, hy, fun h => hn ((hmem ht hs y hy).2 h)⟩
      · rintro ⟨y, hy, hn⟩
        exact ⟨_, (hm ht _).2 ⟨y, hy, rfl⟩, fun h => hn ((hmem ht hs y hy).1 h)⟩
  · apply Bool.eq_iff_iff.2
    rw [Selector.eq_iff_key, Selector.eq_iff_key]
    refine ⟨fun h => ?_, fun h => ?_⟩
    · rw [rename_inj hρ hν hs.target ht.target (TextEq.key_inj hs.target.rename ht.target.rename h)]
    · show (renameSel ρ ν s.target).key = (renameSel ρ ν t.target).key
      rw [TextEq.key_inj hs.target ht.target h]

theorem renameList_add (l : SubgroupList) (s : Subgroup) (p q : Bits) :
    (renameList ρ ν l).add (renameSubgroup ρ ν s) p q = (l.add s p q).map (renameList ρ ν) := by
  unfold SubgroupList.add renameList
  simp only
  split
  · rfl
  · split
    · rfl
    · simp [Except.map]

theorem renameList_deleteLast (l : SubgroupList) : (renameList ρ ν l).deleteLast = renameList ρ ν l.deleteLast := by
  unfold SubgroupList.deleteLast
  have : (renameList ρ ν l).subs.length = l.subs.length := by simp [renameList]
  rw [this]
  split
  · simp [renameList]
  · rfl

variable {G C : Type}

/-- `M'` does on the renamed subgroups what `M` does -/
structure FollowsNames (ρ : Str → Str) (ν : Str → Str → Str) (M M' : Miner G C) : Prop where
  zero : M'.zero = M.zero
  gt : M'.gt = M.gt
  maxSize : M'.maxSize = M.maxSize
  init : M'.init = M.init
  update : ∀ ctr c, M'.update ctr (renameCand ρ ν c) = M.update ctr c
  deletes : ∀ s t, TextSubgroup s → TextSubgroup t → M'.deletes (renameSubgroup ρ ν s) (renameSubgroup ρ ν t) = M.deletes s t
  eval : ∀ sl ctr c, TextSubgroup c.sub → M'.eval (renameList ρ ν sl) ctr (renameCand ρ ν c) = (M.eval sl ctr c).map (fun r => (renameList ρ ν r.1, r.2))

variable {M M' : Miner G C}

theorem selectBest_rename (hF : FollowsNames ρ ν M M') (ctr : C) (cs : List (Option Cand)) (hcs : ∀ c, some c ∈ cs → TextSubgroup c.sub) (i : Nat) (sl : SubgroupList)
    (best : Option (Nat × Cand)) (g : G) :
    selectBest M' ctr (cs.map (Option.map (renameCand ρ ν))) i (renameList ρ ν sl) (best.map (fun b => (b.1, renameCand ρ ν b.2))) g =
      (selectBest M ctr cs i sl best g).map (fun r => (renameList ρ ν r.1, r.2.map (fun b => (b.1, renameCand ρ ν b.2)))) := by
  induction cs generalizing i sl best g with
  | nil => rfl
  | cons o cs ih =>
    cases o with
    | none =>
      simp only [List.map_cons, Option.map_none, selectBest]
      exact ih (fun c hc => hcs c (by simp [hc])) _ sl best g
    | some c =>
      simp only [List.map_cons, Option.map_some, selectBest]
      rw [hF.eval sl ctr c (hcs c (by simp))]
      cases hv : M.eval sl ctr c with
      | error e => rfl
      | ok r =>
        obtain ⟨sl1, gain, cond⟩ := r
        simp only [Except.map]
        rw [hF.gt]
        split
        · exact ih (fun c hc => hcs c (by simp [hc])) _ sl1 (some (i, c)) gain
        · exact ih (fun c hc => hcs c (by simp [hc])) _ sl1 best g

theorem deleteRelated_rename (hF : FollowsNames ρ ν M M') {s : Subgroup} (hs : TextSubgroup s) (cs : List (Option Cand)) (hcs : ∀ c, some c ∈ cs → TextSubgroup c.sub) :
    deleteRelated M' (renameSubgroup ρ ν s) (cs.map (Option.map (renameCand ρ ν))) = (deleteRelated M s cs).map (Option.map (renameCand ρ ν)) := by
  unfold deleteRelated
  rw [List.map_map, List.map_map]
  apply List.map_congr_left
  intro o ho
  cases o with
  | none => rfl
  | some c =>
    have h1 : (renameCand ρ ν c).sub = renameSubgroup ρ ν c.sub := rfl
    simp only [Function.comp_apply, Option.map_some, h1, hF.deletes _ _ hs (hcs c ho)]
    split <;> rfl

theorem buildList_rename (hF : FollowsNames ρ ν M M') (fuel : Nat) (sl : SubgroupList) (ctr : C) (cs : List (Option Cand)) (hcs : ∀ c, some c ∈ cs → TextSubgroup c.sub) :
    buildList M' fuel (renameList ρ ν sl) ctr (cs.map (Option.map (renameCand ρ ν))) =
      (buildList M fuel sl ctr cs).map (Option.map (fun r => (renameList ρ ν r.1, r.2.map (Option.map (renameCand ρ ν))))) ∧
    ∀ r, buildList M fuel sl ctr cs = .ok (some r) → ∀ c, some c ∈ r.2 → TextSubgroup c.sub := by
  induction fuel generalizing sl ctr cs with
  | zero => exact ⟨rfl, fun r h => by simp only [buildList] at h; cases h⟩
  | succ fuel ih =>
    simp only [buildList]
    have hlen : (renameList ρ ν sl).len = sl.len := by simp [SubgroupList.len, renameList]
    rw [hF.maxSize, hlen]
    by_cases hb : belowMax M.maxSize sl.len = true
    · rw [if_pos hb, if_pos hb, hF.zero]
      have s1 := selectBest_rename hF ctr cs hcs 0 sl none M.zero
      simp only [Option.map_none] at s1
      rw [s1]
      have s3 := fun r => selectBest_best (M := M) (ctr := ctr) cs (fun c => TextSubgroup c.sub) hcs 0 sl none (by simp) M.zero r
      cases hv : selectBest M ctr cs 0 sl none M.zero with
      | error e => exact ⟨rfl, fun r h => by cases h⟩
      | ok r =>
        obtain ⟨sl1, ob⟩ := r
        cases ob with
        | none =>
          refine ⟨rfl, fun r h => ?_⟩
          cases h
          exact hcs
        | some b =>
          obtain ⟨i, c⟩ := b
          have hc : TextSubgroup c.sub := s3 _ hv (i, c) rfl
          simp only [Except.map, Option.map_some]
          have e1 : (renameCand ρ ν c).sub = renameSubgroup ρ ν c.sub := rfl
          have e2 : (renameCand ρ ν c).pos = c.pos := rfl
          have e3 : (renameCand ρ ν c).neg = c.neg := rfl
          rw [e1, e2, e3, renameList_add]
          cases hadd : sl1.add c.sub c.pos c.neg with
          | error e => exact ⟨rfl, fun r h => by cases h⟩
          | ok sl2 =>
            simp only [Except.map]
            rw [hF.update]
            have hset : (cs.map (Option.map (renameCand ρ ν))).set i none = (cs.set i none).map (Option.map (renameCand ρ ν)) := by
              rw [List.map_set]; rfl
            have hcs' : ∀ d, some d ∈ cs.set i none → TextSubgroup d.sub := fun d hd => hcs d (mem_set_none hd)
            rw [hset, deleteRelated_rename hF hc _ hcs']
            exact ih sl2 _ _ (fun d hd => hcs' d (mem_deleteRelated hd))
    · rw [if_neg hb, if_neg hb]
      refine ⟨rfl, fun r h => ?_⟩
      cases h
      exact hcs

theorem remaining_rename (cs : List (Option Cand)) : remaining (cs.map (Option.map (renameCand ρ ν))) = remaining cs := by
  unfold remaining
  rw [List.countP_map]
  apply List.countP_congr
  intro o _
  cases o <;> simp

theorem buildLists_rename (hF : FollowsNames ρ ν M M') (l0 : SubgroupList) (k : Nat) (cs : List (Option Cand)) (hcs : ∀ c, some c ∈ cs → TextSubgroup c.sub) :
    buildLists M' (renameList ρ ν l0) k (cs.map (Option.map (renameCand ρ ν))) = (buildLists M l0 k cs).map (List.map (renameList ρ ν)) := by
  induction k generalizing cs with
  | zero => rfl
  | succ k ih =>
    simp only [buildLists]
    obtain ⟨b1, b2⟩ := buildList_rename hF (remaining cs + 1) l0 M.init cs hcs
    rw [remaining_rename, hF.init, b1]
    cases hv : buildList M (remaining cs + 1) l0 M.init cs with
    | error e => rfl
    | ok o =>
      cases o with
      | none => rfl
      | some r =>
        obtain ⟨sl, cs'⟩ := r
        simp only [Except.map, Option.map_some]
        rw [ih cs' (b2 _ hv)]
        cases buildLists M l0 k cs' with
        | error e => rfl
        | ok rest => rfl

/-! ### the three algorithms -/

variable {df : Frame} {target : Str × Str}

theorem renameVal_inj {f : Str → Str} (hf : Function.Injective f) {col : List Val} (hc : ∀ v ∈ col, ∃ s, v = .str s) : ∀ a ∈ col, ∀ b ∈ col, renameVal f a = renameVal f b → a = b := by
  intro a ha b hb h
  obtain ⟨s, rfl⟩ := hc a ha
  obtain ⟨t, rfl⟩ := hc b hb
  simp only [renameVal, Val.str.injEq] at h
  rw [hf h]

theorem dedup_rename {f : Str → Str} (hf : Function.Injective f) {col : List Val} (hc : ∀ v ∈ col, ∃ s, v = .str s) : (col.map (renameVal f)).dedup.length = col.dedup.length := by
  have h1 : ((col.dedup).map (renameVal f)).Nodup :=
    (List.nodup_dedup col).map_on (fun a ha b hb h => renameVal_inj hf hc a (List.mem_dedup.1 ha) b (List.mem_dedup.1 hb) h)
  have h2 : ((col.map (renameVal f)).dedup).Perm (col.dedup.map (renameVal f)) :=
    (List.perm_ext_iff_of_nodup (List.nodup_dedup _) h1).2 (fun v => by simp)
  simpa using h2.length_eq

/-- the sum of the logarithms of the numbers of values of the attributes -/
noncomputable def selectorSum (df : Frame) : List Selector → Except PyErr ℝ
  | [] => .ok 0
  | s :: rest => match df.col s.attr with
    | .error e => .error e
    | .ok col => (selectorSum df rest).map (fun r => Real.logb 2 (col.dedup.length : ℝ) + r)

theorem selectorCost_sum (df : Frame) (ss : List Selector) (r : ℝ) : selectorCost df ss r = (selectorSum df ss).map (fun x => r - x) := by
  induction ss generalizing r with
  | nil => simp [selectorCost, selectorSum, Except.map]
  | cons s ss ih =>
    simp only [selectorCost, selectorSum]
    cases df.col s.attr with
    | error e => rfl
    | ok col =>
      simp only [ih]
      cases selectorSum df ss with
      | error e => rfl
      | ok x => simp only [Except.map]; congr 1; ring

theorem selectorSum_perm (df : Frame) {ss tt : List Selector} (h : ss.Perm tt) : selectorSum df ss = selectorSum df tt := by
  induction h with
  | nil => rfl
  | cons s _ ih => simp only [selectorSum]; rw [ih]
  | swap a b l =>
    simp only [selectorSum]
    cases ha : df.col a.attr with
    | error e =>
      cases hb : df.col b.attr with
      | error e' =>
        unfold Frame.col at ha hb
        revert ha hb
        cases df.cols.lookup a.attr <;> cases df.cols.lookup b.attr <;> simp
        intro h1 h2
        rw [← h1, ← h2]
      | ok c => rfl
    | ok c =>
      cases hb : df.col b.attr with
      | error e' => rfl
      | ok c' =>
        cases selectorSum df l with
        | error e => rfl
        | ok x => simp only [Except.map]; congr 1; ring
  | trans _ _ i1 i2 => rw [i1, i2]

theorem selectorSum_rename (hρ : Function.Injective ρ) (hν : ∀ a, Function.Injective (ν a)) (hf : NominalFrame df target) (ss : List Selector) :
    selectorSum (renameFrame ρ ν df) (ss.map (renameSel ρ ν)) = selectorSum df ss := by
  induction ss with
  | nil => rfl
  | cons s ss ih =>
    simp only [List.map_cons, selectorSum]
    have : (renameFrame ρ ν df).cols.lookup (renameSel ρ ν s).attr = (df.cols.lookup s.attr).map (fun col => col.map (renameVal (ν s.attr))) := lookup_rename hρ _ _
    unfold Frame.col
    rw [this]
    cases hl : df.cols.lookup s.attr with
    | none => rfl
    | some col =>
      simp only [Option.map_some]
      rw [ih, dedup_rename (hν _) (hf.texts _ (mem_of_lookup hl))]

theorem deltaModel_rename (hρ : Function.Injective ρ) (hν : ∀ a, Function.Injective (ν a)) (hf : NominalFrame df target) (sl : SubgroupList) {s : Subgroup} (hs : TextSubgroup s) :
    deltaModel (renameFrame ρ ν df) (renameList ρ ν sl) (renameSubgroup ρ ν s) = deltaModel df sl s := by
  have hp : ((renamePattern ρ ν s.description).sels).Perm (s.description.sels.map (renameSel ρ ν)) :=
    ren_perm (renameFrame_relabelled hρ hν hf) hs.texts (sorted_nodup hs.texts hs.sorted)
  have h1 : (renameList ρ ν sl).len = sl.len := by simp [SubgroupList.len, renameList]
  have h2 : (renameSubgroup ρ ν s).description.sels.length = s.description.sels.length := by
    have := hp.length_eq
    rw [List.length_map] at this
    exact this
  have h3 : (renameFrame ρ ν df).cols.length = df.cols.length := by simp [renameFrame]
  have h4 : ∀ r, selectorCost (renameFrame ρ ν df) (renameSubgroup ρ ν s).description.sels r = selectorCost df s.description.sels r := by
    intro r
    rw [selectorCost_sum, selectorCost_sum, show (renameSubgroup ρ ν s).description = renamePattern ρ ν s.description from rfl, selectorSum_perm _ hp, selectorSum_rename hρ hν hf]
  unfold deltaModel
  simp only [h1, h2, h3, h4]

theorem deltaData_rename (sl : SubgroupList) (c : Cand) :
    deltaData (renameList ρ ν sl) (renameCand ρ ν c) = (deltaData sl c).map (fun r => (renameList ρ ν r.1, r.2)) := by
  unfold deltaData
  have e1 : (renameCand ρ ν c).sub = renameSubgroup ρ ν c.sub := rfl
  have e2 : (renameCand ρ ν c).pos = c.pos := rfl
  have e3 : (renameCand ρ ν c).neg = c.neg := rfl
  simp only [e1, e2, e3, renameList_add]
  cases hadd : sl.add c.sub c.pos c.neg with
  | error e => rfl
  | ok sl1 =>
    simp only [Except.map, renameList_deleteLast]
    rfl

theorem followsNames_gmsl (hρ : Function.Injective ρ) (hν : ∀ a, Function.Injective (ν a)) (hf : NominalFrame df target) (beta : ℝ) :
    FollowsNames ρ ν (gmsl df beta) (gmsl (renameFrame ρ ν df) beta) where
  zero := rfl
  gt := rfl
  maxSize := rfl
  init := rfl
  update := fun _ _ => rfl
  deletes := fun s t hs ht => renameSubgroup_refines hρ hν hs ht false
  eval := by
    intro sl ctr c hc
    simp only [gmsl, gmslEval]
    rw [deltaData_rename]
    cases hv : deltaData sl c with
    | error e => rfl
    | ok r =>
      obtain ⟨sl1, ddm, p, q⟩ := r
      simp only [Except.map]
      split
      · rfl
      · rw [show (renameCand ρ ν c).sub = renameSubgroup ρ ν c.sub from rfl, deltaModel_rename hρ hν hf sl1 hc]
        cases deltaModel df sl1 c.sub with
        | error e => rfl
        | ok dm => rfl

theorem followsNames_psld (hρ : Function.Injective ρ) (hν : ∀ a, Function.Injective (ν a)) (hf : NominalFrame df target) (beta : ℝ) (m : Nat) :
    FollowsNames ρ ν (psld df beta m) (psld (renameFrame ρ ν df) beta m) where
  zero := rfl
  gt := rfl
  maxSize := rfl
  init := rfl
  update := fun _ _ => rfl
  deletes := fun s t hs ht => by simp only [psld, renameSubgroup_refines hρ hν hs ht, renameSubgroup_refines hρ hν ht hs]
  eval := by
    intro sl ctr c hc
    simp only [psld, psldEval]
    rw [deltaData_rename]
    cases hv : deltaData sl c with
    | error e => rfl
    | ok r =>
      obtain ⟨sl1, ddm, p, q⟩ := r
      simp only [Except.map]
      split
      · rfl
      · rw [show (renameCand ρ ν c).sub = renameSubgroup ρ ν c.sub from rfl, deltaModel_rename hρ hν hf sl1 hc]
        cases deltaModel df sl1 c.sub with
        | error e => rfl
        | ok dm => rfl

theorem followsNames_dslm (hρ : Function.Injective ρ) (hν : ∀ a, Function.Injective (ν a)) (hf : NominalFrame df target) (beta : ℝ) (m : Nat) (maxPos maxNeg : ℝ) :
    FollowsNames ρ ν (dslm df beta m maxPos maxNeg) (dslm (renameFrame ρ ν df) beta m maxPos maxNeg) where
  zero := rfl
  gt := rfl
  maxSize := rfl
  init := rfl
  update := fun _ _ => rfl
  deletes := fun s t hs ht => by simp only [dslm, renameSubgroup_refines hρ hν hs ht, renameSubgroup_refines hρ hν ht hs]
  eval := by
    intro sl ctr c hc
    simp only [dslm, dslmEval]
    rw [deltaData_rename]
    cases hv : deltaData sl c with
    | error e => rfl
    | ok r =>
      obtain ⟨sl1, ddm, p, q⟩ := r
      simp only [Except.map]
      split
      · rfl
      · rw [show (renameCand ρ ν c).sub = renameSubgroup ρ ν c.sub from rfl, deltaModel_rename hρ hν hf sl1 hc]
        cases deltaModel df sl1 c.sub with
        | error e => rfl
        | ok dm => rfl

theorem nominal_true (hf : NominalFrame df target) : df.nominal = true := by
  unfold Frame.nominal
  rw [List.all_eq_true]
  intro c hc
  rw [List.all_eq_true]
  intro v hv
  obtain ⟨s, rfl⟩ := hf.texts c hc v hv
  rfl

theorem targetMask_rename (hρ : Function.Injective ρ) (hν : ∀ a, Function.Injective (ν a)) (hf : NominalFrame df target) :
    targetMask (renameFrame ρ ν df) (renameTarget ρ ν target) = targetMask df target := by
  unfold targetMask Frame.col
  have : (renameFrame ρ ν df).cols.lookup (renameTarget ρ ν target).1 = (df.cols.lookup target.1).map (fun col => col.map (renameVal (ν target.1))) := lookup_rename hρ _ _
  rw [this]
  cases hl : df.cols.lookup target.1 with
  | none => rfl
  | some col =>
    simp only [Option.map_some, List.map_map]
    congr 1
    apply List.map_congr_left
    intro v hv
    obtain ⟨s, rfl⟩ := hf.texts _ (mem_of_lookup hl) v hv
    apply Bool.eq_iff_iff.2
    rw [Function.comp_apply, Val.eq_iff_key, Val.eq_iff_key]
    simp only [renameVal, renameTarget, Val.key]
    constructor
    · intro h
      simp at h
      rw [hν _ h]
    · intro h
      simp at h
      rw [h]

theorem listFit_rename (hρ : Function.Injective ρ) (hν : ∀ a, Function.Injective (ν a)) (hf : NominalFrame df target) (hF : FollowsNames ρ ν M M') (k : Nat) (cs : List Cand)
    (hcs : ∀ c ∈ cs, TextSubgroup c.sub) :
    listFit M' k (renameFrame ρ ν df) (renameTarget ρ ν target) (.ok (cs.map (renameCand ρ ν))) = (listFit M k df target (.ok cs)).map (List.map (renameList ρ ν)) := by
  unfold listFit
  rw [show (renameFrame ρ ν df).nrows = df.nrows from rfl]
  split
  · rfl
  · rw [nominal_true hf, nominal_true (relabel_nominal (renameFrame_relabelled hρ hν hf) hf), targetMask_rename hρ hν hf]
    simp only [Bool.not_true, Bool.false_eq_true, if_false]
    cases targetMask df target with
    | error e => rfl
    | ok mask =>
      simp only
      cases hn : SubgroupList.new mask (Bits.not mask) df.nrows with
      | error e => rfl
      | ok l0 =>
        have h0 : renameList ρ ν l0 = l0 := by
          unfold SubgroupList.new at hn
          split at hn
          · cases hn
          · split at hn
            · cases hn
            · cases hn; rfl
        have := buildLists_rename hF l0 k (cs.map some) (fun c hc => hcs c (by simpa using hc))
        rw [h0] at this
        simp only
        rw [← this]
        congr 1
        simp

end Verif

import Verif.Lemmas.Shuffle
import Verif.Lemmas.Bits
import Verif.Model.ListFile
/-! Lemmas for C94: the subgroup-list algorithms on rows in another order. -/
namespace Verif
open Spec

/-- the bits in the order `π` of the rows -/
def Spec.reorder (π : List Nat) (b : Bits) : Bits := π.map (fun i => b.get i)

/-- the candidate with the rows in the order `π` -/
def Spec.Cand.reorder (π : List Nat) (c : Cand) : Cand := ⟨c.sub, Spec.reorder π c.pos, Spec.reorder π c.neg⟩

/-- the subgroup list with the rows in the order `π` -/
def Spec.SubgroupList.reorder (π : List Nat) (l : SubgroupList) : SubgroupList :=
  ⟨Spec.reorder π l.defPos, Spec.reorder π l.defNeg, l.dist, l.subs, l.pos.map (Spec.reorder π), l.neg.map (Spec.reorder π), l.origPos.map (Spec.reorder π), l.origNeg.map (Spec.reorder π)⟩

section
variable {π : List Nat} {n : Nat} (hp : π.Perm (List.range n))

theorem reorder_len (b : Bits) : (reorder π b).length = π.length := by simp [reorder]

include hp in
theorem perm_len : π.length = n := by rw [hp.length_eq, List.length_range]

theorem reorder_and (a b : Bits) : reorder π (a.and b) = (reorder π a).and (reorder π b) := by
  unfold reorder Bits.and
  rw [List.zipWith_map, List.zipWith_self]
  apply List.map_congr_left
  intro i _
  exact Bits.get_and a b i

theorem reorder_or {a b : Bits} (h : a.length = b.length) : reorder π (a.or b) = (reorder π a).or (reorder π b) := by
  unfold reorder Bits.or
  rw [List.zipWith_map, List.zipWith_self]
  apply List.map_congr_left
  intro i _
  exact Bits.get_or a b i h

include hp in
theorem reorder_not {a : Bits} (h : a.length = n) : reorder π a.not = (reorder π a).not := by
  unfold reorder
  conv_rhs => unfold Bits.not
  rw [List.map_map]
  apply List.map_congr_left
  intro i hi
  have : i < n := List.mem_range.1 (hp.mem_iff.1 hi)
  rw [Bits.get_not, Function.comp_apply]
  simp [h, this]

theorem map_get {a : Bits} (h : a.length = n) : (List.range n).map (fun i => a.get i) = a := by
  apply List.ext_getElem (by simp [h])
  intro i h1 h2
  simp only [List.getElem_map, List.getElem_range]
  exact Bits.get_lt a i h2

include hp in
theorem reorder_perm {a : Bits} (h : a.length = n) : (reorder π a).Perm a := by
  have := hp.map (fun i => a.get i)
  rw [map_get h] at this
  exact this

include hp in
theorem reorder_ones {a : Bits} (h : a.length = n) : (reorder π a).ones = a.ones := (reorder_perm hp h).count_eq _

/-- all the bit arrays have one bit per row -/
structure Even (n : Nat) (l : SubgroupList) : Prop where
  rows : l.dist.2 = n
  defPos : l.defPos.length = n
  defNeg : l.defNeg.length = n
  pos : ∀ b ∈ l.pos, b.length = n
  neg : ∀ b ∈ l.neg, b.length = n
  sizes : l.pos.length = l.subs.length ∧ l.neg.length = l.subs.length
  origPos : ∀ b ∈ l.origPos, b.length = n
  origNeg : ∀ b ∈ l.origNeg, b.length = n
  origSizes : l.origPos.length = l.subs.length ∧ l.origNeg.length = l.subs.length

def CandOk (n : Nat) (c : Cand) : Prop := c.pos.length = n ∧ c.neg.length = n

theorem even_add {l l1 : SubgroupList} (he : Even n l) {s : Subgroup} {p q : Bits} (h1 : p.length = n) (h2 : q.length = n) (h : l.add s p q = .ok l1) : Even n l1 := by
  unfold SubgroupList.add at h
  rw [he.rows, if_neg (by simp [h1]), if_neg (by simp [h2])] at h
  cases h
  refine ⟨he.rows, ?_, ?_, ?_, ?_, ?_, ?_, ?_, ?_⟩
  · simp [Bits.len_and, Bits.len_not, he.defPos, h1]
  · simp [Bits.len_and, Bits.len_not, he.defNeg, h2]
  · intro b hb
    rcases List.mem_append.1 hb with hb | hb
    · exact he.pos b hb
    · rw [List.mem_singleton.1 hb]; simp [Bits.len_and, he.defPos, h1]
  · intro b hb
    rcases List.mem_append.1 hb with hb | hb
    · exact he.neg b hb
    · rw [List.mem_singleton.1 hb]; simp [Bits.len_and, he.defNeg, h2]
  · simp [he.sizes.1, he.sizes.2]
  · intro b hb
    rcases List.mem_append.1 hb with hb | hb
    · exact he.origPos b hb
    · rw [List.mem_singleton.1 hb]; exact h1
  · intro b hb
    rcases List.mem_append.1 hb with hb | hb
    · exact he.origNeg b hb
    · rw [List.mem_singleton.1 hb]; exact h2
  · simp [he.origSizes.1, he.origSizes.2]

theorem getLastD_len {L : List Bits} (h : ∀ b ∈ L, b.length = n) (hne : L ≠ []) : (L.getLastD []).length = n := by
  rw [List.getLastD_eq_getLast?, List.getLast?_eq_getLast_of_ne_nil hne, Option.getD_some]
  exact h _ (List.getLast_mem hne)

theorem even_deleteLast {l : SubgroupList} (he : Even n l) : Even n l.deleteLast := by
  unfold SubgroupList.deleteLast
  split
  · rename_i hlen
    have h1 : l.pos ≠ [] := fun h => by have := he.sizes.1; rw [h] at this; simp at this; omega
    have h2 : l.neg ≠ [] := fun h => by have := he.sizes.2; rw [h] at this; simp at this; omega
    refine ⟨he.rows, ?_, ?_, fun b hb => he.pos b (List.dropLast_subset _ hb), fun b hb => he.neg b (List.dropLast_subset _ hb), ?_, fun b hb => he.origPos b (List.dropLast_subset _ hb), fun b hb => he.origNeg b (List.dropLast_subset _ hb), ?_⟩
    · simp only [Bits.len_or, he.defPos, getLastD_len he.pos h1, min_self]
    · simp only [Bits.len_or, he.defNeg, getLastD_len he.neg h2, min_self]
    · simp [he.sizes.1, he.sizes.2]
    · simp [he.origSizes.1, he.origSizes.2]
  · exact he

include hp in
theorem reorder_add {l : SubgroupList} (he : Even n l) (s : Subgroup) {p q : Bits} (h1 : p.length = n) (h2 : q.length = n) :
    (Spec.SubgroupList.reorder π l).add s (reorder π p) (reorder π q) = (l.add s p q).map (Spec.SubgroupList.reorder π) := by
  have hl := perm_len hp
  unfold SubgroupList.add
  have hr : (Spec.SubgroupList.reorder π l).dist.2 = n := he.rows
  rw [hr, he.rows, if_neg (by simp [reorder_len, hl]), if_neg (by simp [reorder_len, hl]), if_neg (by simp [h1]), if_neg (by simp [h2])]
  simp only [Except.map, Spec.SubgroupList.reorder, List.map_append, List.map_cons, List.map_nil, Except.ok.injEq, SubgroupList.mk.injEq, true_and, and_true]
  refine ⟨?_, ?_, ?_, ?_⟩
  · rw [reorder_and, reorder_not hp (by simp [Bits.len_and, h1, he.defPos]), reorder_and]
  · rw [reorder_and, reorder_not hp (by simp [Bits.len_and, h2, he.defNeg]), reorder_and]
  · rw [reorder_and]
  · rw [reorder_and]

theorem getLastD_reorder {L : List Bits} (hne : L ≠ []) : (L.map (reorder π)).getLastD [] = reorder π (L.getLastD []) := by
  rw [List.getLastD_eq_getLast?, List.getLastD_eq_getLast?, List.getLast?_map, List.getLast?_eq_getLast_of_ne_nil hne]
  rfl

theorem reorder_deleteLast {l : SubgroupList} (he : Even n l) : (Spec.SubgroupList.reorder π l).deleteLast = Spec.SubgroupList.reorder π l.deleteLast := by
  unfold SubgroupList.deleteLast
  have hs : (Spec.SubgroupList.reorder π l).subs = l.subs := rfl
  rw [hs]
  split
  · rename_i hlen
    have h1 : l.pos ≠ [] := fun h => by have := he.sizes.1; rw [h] at this; simp at this; omega
    have h2 : l.neg ≠ [] := fun h => by have := he.sizes.2; rw [h] at this; simp at this; omega
    simp only [Spec.SubgroupList.reorder, List.map_dropLast, SubgroupList.mk.injEq, true_and, and_true]
    refine ⟨?_, ?_⟩
    · rw [getLastD_reorder h1, reorder_or (by rw [he.defPos, getLastD_len he.pos h1])]
    · rw [getLastD_reorder h2, reorder_or (by rw [he.defNeg, getLastD_len he.neg h2])]
  · rfl

/-! ### the search -/

variable {G C : Type}

/-- `M'` does on the reordered rows what `M` does -/
structure Follows (n : Nat) (π : List Nat) (M M' : Miner G C) (φ : C → C) (K : C → Prop) : Prop where
  zero : M'.zero = M.zero
  gt : M'.gt = M.gt
  deletes : M'.deletes = M.deletes
  maxSize : M'.maxSize = M.maxSize
  init : M'.init = φ M.init ∧ K M.init
  update : ∀ ctr c, K ctr → CandOk n c → M'.update (φ ctr) (Spec.Cand.reorder π c) = φ (M.update ctr c) ∧ K (M.update ctr c)
  eval : ∀ sl ctr c, Even n sl → K ctr → CandOk n c →
    M'.eval (Spec.SubgroupList.reorder π sl) (φ ctr) (Spec.Cand.reorder π c) = (M.eval sl ctr c).map (fun r => (Spec.SubgroupList.reorder π r.1, r.2)) ∧
    ∀ r, M.eval sl ctr c = .ok r → Even n r.1

variable {M M' : Miner G C} {φ : C → C} {K : C → Prop}

theorem selectBest_reorder (hF : Follows n π M M' φ K) {ctr : C} (hk : K ctr) (cs : List (Option Cand)) (hcs : ∀ c, some c ∈ cs → CandOk n c) (i : Nat) (sl : SubgroupList) (he : Even n sl)
    (best : Option (Nat × Cand)) (g : G) :
    selectBest M' (φ ctr) (cs.map (Option.map (Spec.Cand.reorder π))) i (Spec.SubgroupList.reorder π sl) (best.map (fun b => (b.1, Spec.Cand.reorder π b.2))) g =
      (selectBest M ctr cs i sl best g).map (fun r => (Spec.SubgroupList.reorder π r.1, r.2.map (fun b => (b.1, Spec.Cand.reorder π b.2)))) ∧
    ∀ r, selectBest M ctr cs i sl best g = .ok r → Even n r.1 := by
  induction cs generalizing i sl best g with
  | nil =>
    refine ⟨rfl, fun r h => ?_⟩
    simp only [selectBest] at h
    cases h
    exact he
  | cons o cs ih =>
    cases o with
    | none =>
      simp only [List.map_cons, Option.map_none, selectBest]
      exact ih (fun c hc => hcs c (by simp [hc])) _ sl he best g
    | some c =>
      obtain ⟨e1, e2⟩ := hF.eval sl ctr c he hk (hcs c (by simp))
      simp only [List.map_cons, Option.map_some, selectBest]
      rw [e1]
      cases hv : M.eval sl ctr c with
      | error e => exact ⟨rfl, fun r h => by cases h⟩
      | ok r =>
        obtain ⟨sl1, gain, cond⟩ := r
        have he1 := e2 _ hv
        simp only [Except.map]
        rw [hF.gt]
        split
        · exact ih (fun c hc => hcs c (by simp [hc])) _ sl1 he1 (some (i, c)) gain
        · exact ih (fun c hc => hcs c (by simp [hc])) _ sl1 he1 best g

theorem selectBest_best {ctr : C} (cs : List (Option Cand)) (P : Cand → Prop) (hcs : ∀ c, some c ∈ cs → P c) (i : Nat) (sl : SubgroupList)
    (best : Option (Nat × Cand)) (hb : ∀ b ∈ best, P b.2) (g : G) (r : SubgroupList × Option (Nat × Cand)) (h : selectBest M ctr cs i sl best g = .ok r) : ∀ b ∈ r.2, P b.2 := by
  induction cs generalizing i sl best g with
  | nil => simp only [selectBest] at h; cases h; exact hb
  | cons o cs ih =>
    cases o with
    | none =>
      simp only [selectBest] at h
      exact ih (fun c hc => hcs c (by simp [hc])) _ _ best hb g h
    | some c =>
      simp only [selectBest] at h
      cases hv : M.eval sl ctr c with
      | error e => rw [hv] at h; cases h
      | ok r1 =>
        obtain ⟨sl1, gain, cond⟩ := r1
        rw [hv] at h
        simp only at h
        split at h
        · exact ih (fun c hc => hcs c (by simp [hc])) _ _ _ (fun b hb' => by
            rw [Option.mem_some_iff] at hb'; rw [← hb']; exact hcs c (by simp)) _ h
        · exact ih (fun c hc => hcs c (by simp [hc])) _ _ best hb g h

theorem deleteRelated_reorder (hd : M'.deletes = M.deletes) (s : Subgroup) (cs : List (Option Cand)) :
    deleteRelated M' s (cs.map (Option.map (Spec.Cand.reorder π))) = (deleteRelated M s cs).map (Option.map (Spec.Cand.reorder π)) := by
  unfold deleteRelated
  rw [List.map_map, List.map_map]
  apply List.map_congr_left
  intro o _
  cases o with
  | none => rfl
  | some c =>
    simp only [Function.comp_apply, Option.map_some, hd]
    have : (Spec.Cand.reorder π c).sub = c.sub := rfl
    rw [this]
    split <;> rfl

theorem mem_deleteRelated {s : Subgroup} {cs : List (Option Cand)} {c : Cand} (h : some c ∈ deleteRelated M s cs) : some c ∈ cs := by
  unfold deleteRelated at h
  obtain ⟨o, ho, he⟩ := List.mem_map.1 h
  cases o with
  | none => cases he
  | some d =>
    simp only at he
    split at he
    · cases he
    · cases he; exact ho

theorem mem_set_none {cs : List (Option Cand)} {i : Nat} {c : Cand} (h : some c ∈ cs.set i none) : some c ∈ cs := by
  rcases List.mem_or_eq_of_mem_set h with h | h
  · exact h
  · cases h

include hp in
theorem buildList_reorder (hF : Follows n π M M' φ K) (fuel : Nat) (sl : SubgroupList) (he : Even n sl) (ctr : C) (hk : K ctr) (cs : List (Option Cand)) (hcs : ∀ c, some c ∈ cs → CandOk n c) :
    buildList M' fuel (Spec.SubgroupList.reorder π sl) (φ ctr) (cs.map (Option.map (Spec.Cand.reorder π))) =
      (buildList M fuel sl ctr cs).map (Option.map (fun r => (Spec.SubgroupList.reorder π r.1, r.2.map (Option.map (Spec.Cand.reorder π))))) ∧
    ∀ r, buildList M fuel sl ctr cs = .ok (some r) → Even n r.1 ∧ ∀ c, some c ∈ r.2 → CandOk n c := by
  induction fuel generalizing sl ctr cs with
  | zero => exact ⟨rfl, fun r h => by simp only [buildList] at h; cases h⟩
  | succ fuel ih =>
    simp only [buildList]
    have hlen : (Spec.SubgroupList.reorder π sl).len = sl.len := rfl
    rw [hF.maxSize, hlen]
    by_cases hb : belowMax M.maxSize sl.len = true
    · rw [if_pos hb, if_pos hb, hF.zero]
      obtain ⟨s1, s2⟩ := selectBest_reorder hF hk cs hcs 0 sl he none M.zero
      simp only [Option.map_none] at s1
      rw [s1]
      have s3 := fun r => selectBest_best (M := M) (ctr := ctr) cs (CandOk n) hcs 0 sl none (by simp) M.zero r
      cases hv : selectBest M ctr cs 0 sl none M.zero with
      | error e => exact ⟨rfl, fun r h => by cases h⟩
      | ok r =>
        obtain ⟨sl1, ob⟩ := r
        have he1 := s2 _ hv
        cases ob with
        | none =>
          refine ⟨rfl, fun r h => ?_⟩
          cases h
          exact ⟨he1, hcs⟩
        | some b =>
          obtain ⟨i, c⟩ := b
          have hc : CandOk n c := s3 _ hv (i, c) rfl
          simp only [Except.map, Option.map_some]
          have ha := reorder_add hp he1 c.sub hc.1 hc.2
          have e1 : (Spec.Cand.reorder π c).sub = c.sub := rfl
          have e2 : (Spec.Cand.reorder π c).pos = reorder π c.pos := rfl
          have e3 : (Spec.Cand.reorder π c).neg = reorder π c.neg := rfl
          rw [e1, e2, e3, ha]
          cases hadd : sl1.add c.sub c.pos c.neg with
          | error e => exact ⟨rfl, fun r h => by cases h⟩
          | ok sl2 =>
            simp only [Except.map]
            obtain ⟨u1, u2⟩ := hF.update ctr c hk hc
            rw [u1]
            have hset : (cs.map (Option.map (Spec.Cand.reorder π))).set i none = (cs.set i none).map (Option.map (Spec.Cand.reorder π)) := by
              rw [List.map_set]; rfl
            rw [hset, deleteRelated_reorder hF.deletes]
            exact ih sl2 (even_add he1 hc.1 hc.2 hadd) _ u2 _ (fun d hd => hcs d (mem_set_none (mem_deleteRelated hd)))
    · rw [if_neg hb, if_neg hb]
      refine ⟨rfl, fun r h => ?_⟩
      cases h
      exact ⟨he, hcs⟩

theorem remaining_reorder (cs : List (Option Cand)) : remaining (cs.map (Option.map (Spec.Cand.reorder π))) = remaining cs := by
  unfold remaining
  rw [List.countP_map]
  apply List.countP_congr
  intro o _
  cases o <;> simp

include hp in
theorem buildLists_reorder (hF : Follows n π M M' φ K) (l0 : SubgroupList) (he : Even n l0) (k : Nat) (cs : List (Option Cand)) (hcs : ∀ c, some c ∈ cs → CandOk n c) :
    buildLists M' (Spec.SubgroupList.reorder π l0) k (cs.map (Option.map (Spec.Cand.reorder π))) = (buildLists M l0 k cs).map (List.map (Spec.SubgroupList.reorder π)) ∧ ∀ r, buildLists M l0 k cs = .ok r → ∀ l ∈ r, Even n l := by
  induction k generalizing cs with
  | zero => exact ⟨rfl, fun r h => by simp only [buildLists] at h; cases h; simp⟩
  | succ k ih =>
    simp only [buildLists]
    obtain ⟨b1, b2⟩ := buildList_reorder hp hF (remaining cs + 1) l0 he M.init hF.init.2 cs hcs
    rw [remaining_reorder, hF.init.1, b1]
    cases hv : buildList M (remaining cs + 1) l0 M.init cs with
    | error e => exact ⟨rfl, fun r h => by cases h⟩
    | ok o =>
      cases o with
      | none => exact ⟨rfl, fun r h => by cases h; simp⟩
      | some r =>
        obtain ⟨sl, cs'⟩ := r
        simp only [Except.map, Option.map_some]
        obtain ⟨i1, i2⟩ := ih cs' (b2 _ hv).2
        rw [i1]
        cases hw : buildLists M l0 k cs' with
        | error e => exact ⟨rfl, fun r h => by cases h⟩
        | ok rest =>
          refine ⟨rfl, fun r h => ?_⟩
          cases h
          intro l hl
          rcases List.mem_cons.1 hl with rfl | hl
          · exact (b2 _ hv).1
          · exact i2 _ hw l hl

/-! ### the three algorithms -/

variable {df df' : Frame} {target : Str × Str}

theorem col_reorder (h : Shuffled df df' π) (a : Str) : (∀ e, df.col a = .error e → df'.col a = .error e) ∧
    ∀ col, df.col a = .ok col → ∃ col', df'.col a = .ok col' ∧ col'.map some = π.map (fun i : Nat => col[i]?) := by
  unfold Frame.col
  cases hl : df.cols.lookup a with
  | none =>
    have : df'.cols.lookup a = none := lookup_none.2 (fun hh => lookup_none.1 hl (h.columns.mem_iff.1 hh))
    rw [this]
    exact ⟨fun e he => he, (fun col hc => by cases hc)⟩
  | some col =>
    obtain ⟨col', h1, h2⟩ := h.cells a col hl
    rw [h1]
    refine ⟨(fun e he => by cases he), fun c hc => ?_⟩
    cases hc
    exact ⟨col', rfl, h2⟩

theorem selectorCost_reorder (h : Shuffled df df' π) (hw : WF df) (ss : List Selector) (r : ℝ) : selectorCost df' ss r = selectorCost df ss r := by
  induction ss generalizing r with
  | nil => rfl
  | cons s ss ih =>
    simp only [selectorCost]
    unfold Frame.col
    cases hl : df.cols.lookup s.attr with
    | none =>
      have : df'.cols.lookup s.attr = none := lookup_none.2 (fun hh => lookup_none.1 hl (h.columns.mem_iff.1 hh))
      rw [this]
    | some col =>
      obtain ⟨col', h1, h2⟩ := shuffle_mem h.toIncludes hw hl
      rw [h1]
      have : col'.dedup.length = col.dedup.length :=
        ((List.perm_ext_iff_of_nodup (List.nodup_dedup _) (List.nodup_dedup _)).2 (fun v => by rw [List.mem_dedup, List.mem_dedup]; exact h2 v)).length_eq
      simp only [this]
      exact ih _

theorem deltaModel_reorder (h : Shuffled df df' π) (hw : WF df) (sl : SubgroupList) (s : Subgroup) : deltaModel df' (Spec.SubgroupList.reorder π sl) s = deltaModel df sl s := by
  have hl : df'.cols.length = df.cols.length := by simpa using h.columns.length_eq
  unfold deltaModel
  have : (Spec.SubgroupList.reorder π sl).len = sl.len := rfl
  simp only [hl, this, selectorCost_reorder h hw]

include hp in
theorem deltaData_reorder {sl : SubgroupList} (he : Even n sl) {c : Cand} (hc : CandOk n c) :
    deltaData (Spec.SubgroupList.reorder π sl) (Spec.Cand.reorder π c) = (deltaData sl c).map (fun r => (Spec.SubgroupList.reorder π r.1, r.2)) ∧
    ∀ r, deltaData sl c = .ok r → Even n r.1 := by
  unfold deltaData
  have ha := reorder_add hp he c.sub hc.1 hc.2
  have e1 : (Spec.Cand.reorder π c).sub = c.sub := rfl
  have e2 : (Spec.Cand.reorder π c).pos = reorder π c.pos := rfl
  have e3 : (Spec.Cand.reorder π c).neg = reorder π c.neg := rfl
  simp only [e1, e2, e3, ha]
  cases hadd : sl.add c.sub c.pos c.neg with
  | error e => exact ⟨rfl, fun r h => by cases h⟩
  | ok sl1 =>
    have he1 := even_add he hc.1 hc.2 hadd
    have hne : sl1.pos ≠ [] ∧ sl1.neg ≠ [] := by
      unfold SubgroupList.add at hadd
      rw [he.rows, if_neg (by simp [hc.1]), if_neg (by simp [hc.2])] at hadd
      cases hadd
      simp
    refine ⟨?_, fun r h => by cases h; exact even_deleteLast he1⟩
    have f1 : (Spec.SubgroupList.reorder π sl).dist = sl.dist := rfl
    have f2 : (Spec.SubgroupList.reorder π sl).defPos = reorder π sl.defPos := rfl
    have f3 : (Spec.SubgroupList.reorder π sl).defNeg = reorder π sl.defNeg := rfl
    have f4 : (Spec.SubgroupList.reorder π sl1).defPos = reorder π sl1.defPos := rfl
    have f5 : (Spec.SubgroupList.reorder π sl1).defNeg = reorder π sl1.defNeg := rfl
    have f6 : (Spec.SubgroupList.reorder π sl1).pos = sl1.pos.map (reorder π) := rfl
    have f7 : (Spec.SubgroupList.reorder π sl1).neg = sl1.neg.map (reorder π) := rfl
    simp only [Except.map, f1, f2, f3, f4, f5, f6, f7, getLastD_reorder hne.1, getLastD_reorder hne.2,
      reorder_ones hp he.defPos, reorder_ones hp he.defNeg, reorder_ones hp he1.defPos, reorder_ones hp he1.defNeg,
      reorder_ones hp (getLastD_len he1.pos hne.1), reorder_ones hp (getLastD_len he1.neg hne.2), reorder_deleteLast he1]

theorem follows_gmsl (h : Shuffled df df' π) (hw : WF df) (beta : ℝ) : Follows df.nrows π (gmsl df beta) (gmsl df' beta) id (fun _ => True) where
  zero := rfl
  gt := rfl
  deletes := rfl
  maxSize := rfl
  init := ⟨rfl, trivial⟩
  update := fun _ _ _ _ => ⟨rfl, trivial⟩
  eval := by
    intro sl ctr c he _ hc
    obtain ⟨d1, d2⟩ := deltaData_reorder h.perm he hc
    simp only [gmsl, gmslEval]
    rw [d1]
    cases hv : deltaData sl c with
    | error e => exact ⟨rfl, fun r hr => by cases hr⟩
    | ok r =>
      obtain ⟨sl1, ddm, p, q⟩ := r
      have he1 := d2 _ hv
      simp only [Except.map]
      split
      · exact ⟨rfl, fun r hr => by cases hr; exact he1⟩
      · rw [deltaModel_reorder h hw, show (Spec.Cand.reorder π c).sub = c.sub from rfl]
        cases deltaModel df sl1 c.sub with
        | error e => exact ⟨rfl, fun r hr => by cases hr⟩
        | ok dm => exact ⟨rfl, fun r hr => by cases hr; exact he1⟩

theorem follows_psld (h : Shuffled df df' π) (hw : WF df) (beta : ℝ) (m : Nat) : Follows df.nrows π (psld df beta m) (psld df' beta m) id (fun _ => True) where
  zero := rfl
  gt := rfl
  deletes := rfl
  maxSize := rfl
  init := ⟨rfl, trivial⟩
  update := fun _ _ _ _ => ⟨rfl, trivial⟩
  eval := by
    intro sl ctr c he _ hc
    obtain ⟨d1, d2⟩ := deltaData_reorder h.perm he hc
    simp only [psld, psldEval]
    rw [d1]
    cases hv : deltaData sl c with
    | error e => exact ⟨rfl, fun r hr => by cases hr⟩
    | ok r =>
      obtain ⟨sl1, ddm, p, q⟩ := r
      have he1 := d2 _ hv
      simp only [Except.map]
      split
      · exact ⟨rfl, fun r hr => by cases hr; exact he1⟩
      · rw [deltaModel_reorder h hw, show (Spec.Cand.reorder π c).sub = c.sub from rfl]
        cases deltaModel df sl1 c.sub with
        | error e => exact ⟨rfl, fun r hr => by cases hr⟩
        | ok dm => exact ⟨rfl, fun r hr => by cases hr; exact he1⟩

/-- a counter in the order `π` of the rows -/
def ctrReorder (π : List Nat) (c : List Nat) : List Nat := π.map (fun i => c.getD i 0)

theorem ctr_range {c : List Nat} (h : c.length = n) : (List.range n).map (fun i => c.getD i 0) = c := by
  apply List.ext_getElem (by simp [h])
  intro i h1 h2
  simp [h2]

theorem overlapSums_eq (c : List Nat) (b : Bits) (h : c.length = b.length) :
    overlapSums c b = (c.sum, ((c.zip b).map (fun e => if e.2 then e.1 else 0)).sum) := by
  induction c generalizing b with
  | nil => cases b <;> simp [overlapSums]
  | cons x c ih =>
    cases b with
    | nil => simp at h
    | cons y b =>
      simp only [List.length_cons, Nat.add_right_cancel_iff] at h
      simp [overlapSums, ih b h]

include hp in
theorem overlapFactor_reorder (d : Rat) {b : Bits} (hb : b.length = n) {c : List Nat} (hc : c.length = n) : overlapFactor d (reorder π b) (ctrReorder π c) = overlapFactor d b c := by
  have hsum : overlapSums (ctrReorder π c) (reorder π b) = overlapSums c b := by
    rw [overlapSums_eq _ _ (by simp [ctrReorder, reorder]), overlapSums_eq _ _ (by rw [hb, hc])]
    congr 1
    · have := (hp.map (fun i => c.getD i 0)).sum_eq
      rw [ctr_range hc] at this
      exact this
    · have e1 : (ctrReorder π c).zip (reorder π b) = π.map (fun i => (c.getD i 0, b.get i)) := by
        unfold ctrReorder reorder
        rw [List.zip_map', ]
      have e2 : c.zip b = (List.range n).map (fun i => (c.getD i 0, b.get i)) := by
        conv_lhs => rw [← ctr_range hc, ← map_get hb]
        rw [List.zip_map']
      rw [e1, e2]
      exact ((hp.map _).map _).sum_eq
  unfold overlapFactor
  rw [reorder_ones hp hb, hsum]

include hp in
theorem bump_reorder {b : Bits} (hb : b.length = n) {c : List Nat} (hc : c.length = n) : bumpCounter (ctrReorder π c) (reorder π b) = ctrReorder π (bumpCounter c b) ∧ (bumpCounter c b).length = n := by
  refine ⟨?_, by simp [bumpCounter, hb, hc]⟩
  unfold bumpCounter ctrReorder reorder
  rw [List.zipWith_map, List.zipWith_self]
  apply List.map_congr_left
  intro i hi
  have hlt : i < n := List.mem_range.1 (hp.mem_iff.1 hi)
  rw [Bits.get_lt b i (by omega)]
  simp [List.getElem?_zipWith, List.getElem?_eq_getElem (show i < c.length by omega), List.getElem?_eq_getElem (show i < b.length by omega)]

theorem follows_dslm (h : Shuffled df df' π) (hw : WF df) (beta : ℝ) (m : Nat) (maxPos maxNeg : ℝ) :
    Follows df.nrows π (dslm df beta m maxPos maxNeg) (dslm df' beta m maxPos maxNeg) (fun c => (ctrReorder π c.1, ctrReorder π c.2)) (fun c => c.1.length = df.nrows ∧ c.2.length = df.nrows) where
  zero := rfl
  gt := rfl
  deletes := rfl
  maxSize := rfl
  init := by
    have : ctrReorder π (List.replicate df.nrows 0) = List.replicate df.nrows 0 := by
      have hl := perm_len h.perm
      apply List.ext_getElem (by simp [ctrReorder, hl])
      intro i h1 h2
      have : ∀ k, (List.replicate df.nrows 0).getD k 0 = 0 := fun k => by
        rw [List.getD_eq_getElem?_getD, List.getElem?_replicate]; split <;> rfl
      simp only [ctrReorder, List.getElem_map, this, List.getElem_replicate]
    simp only [dslm]
    rw [this, h.rows]
    exact ⟨rfl, by simp⟩
  update := by
    intro ctr c hk hc
    obtain ⟨a1, a2⟩ := bump_reorder h.perm hc.1 hk.1
    obtain ⟨b1, b2⟩ := bump_reorder h.perm hc.2 hk.2
    refine ⟨?_, a2, b2⟩
    simp only [dslm, Spec.Cand.reorder, a1, b1]
  eval := by
    intro sl ctr c he hk hc
    obtain ⟨d1, d2⟩ := deltaData_reorder h.perm he hc
    simp only [dslm, dslmEval]
    rw [d1]
    cases hv : deltaData sl c with
    | error e => exact ⟨rfl, fun r hr => by cases hr⟩
    | ok r =>
      obtain ⟨sl1, ddm, p, q⟩ := r
      have he1 := d2 _ hv
      have o1 : overlapFactor 1 (Spec.Cand.reorder π c).pos (ctrReorder π ctr.1) = overlapFactor 1 c.pos ctr.1 := overlapFactor_reorder h.perm 1 hc.1 hk.1
      have o2 : overlapFactor 0 (Spec.Cand.reorder π c).neg (ctrReorder π ctr.2) = overlapFactor 0 c.neg ctr.2 := overlapFactor_reorder h.perm 0 hc.2 hk.2
      simp only [Except.map, o1, o2]
      split
      · exact ⟨rfl, fun r hr => by cases hr; exact he1⟩
      · rw [deltaModel_reorder h hw, show (Spec.Cand.reorder π c).sub = c.sub from rfl]
        cases deltaModel df sl1 c.sub with
        | error e => exact ⟨rfl, fun r hr => by cases hr⟩
        | ok dm => exact ⟨rfl, fun r hr => by cases hr; exact he1⟩

theorem targetMask_reorder (h : Shuffled df df' π) {mask : Bits} (hw : WF df) (hm : targetMask df target = .ok mask) :
    targetMask df' target = .ok (reorder π mask) ∧ mask.length = df.nrows := by
  unfold targetMask Frame.col at hm ⊢
  cases hl : df.cols.lookup target.1 with
  | none => rw [hl] at hm; cases hm
  | some col =>
    rw [hl] at hm
    cases hm
    obtain ⟨col', h1, h2⟩ := h.cells _ _ hl
    rw [h1]
    have hlen : col.length = df.nrows := hw _ (mem_of_lookup hl)
    refine ⟨?_, by rw [List.length_map]; exact hlen⟩
    simp only [Except.ok.injEq]
    have hl' : col'.length = π.length := by simpa using congrArg List.length h2
    apply List.ext_getElem (by simp [reorder, hl'])
    intro i a b
    rw [List.length_map] at a
    have hi : i < π.length := by omega
    have := congrArg (fun l => l[i]?) h2
    simp only [List.getElem?_map, List.getElem?_eq_getElem a, List.getElem?_eq_getElem hi, Option.map_some] at this
    injection this with this
    have hg : (reorder π (col.map (fun v => v.eq (.str target.2))))[i] = Bits.get (col.map (fun v => v.eq (.str target.2))) π[i] := by
      simp [reorder]
    rw [hg, List.getElem_map]
    have hlt : π[i] < df.nrows := List.mem_range.1 (h.perm.mem_iff.1 (List.getElem_mem _))
    rw [Bits.get_lt _ _ (by rw [List.length_map]; omega), List.getElem_map]
    obtain ⟨_, hx⟩ := List.getElem?_eq_some_iff.1 this.symm
    rw [← hx]

theorem shuffle_target_error (h : Shuffled df df' π) {e : PyErr} (hm : targetMask df target = .error e) : targetMask df' target = .error e := by
  unfold targetMask at hm ⊢
  obtain ⟨a, b⟩ := col_reorder h target.1
  cases hc : df.col target.1 with
  | ok col => rw [hc] at hm; cases hm
  | error e' => rw [a _ hc]; rw [hc] at hm; cases hm; rfl

theorem listFit_reorder (h : Shuffled df df' π) (hf : NominalFrame df target) (hF : Follows df.nrows π M M' φ K) (k : Nat) (cs : Except PyErr (List Cand))
    (hcs : ∀ l, cs = .ok l → ∀ c ∈ l, CandOk df.nrows c) :
    listFit M' k df' target (cs.map (List.map (Spec.Cand.reorder π))) = (listFit M k df target cs).map (List.map (Spec.SubgroupList.reorder π)) ∧
    ∀ r, listFit M k df target cs = .ok r → ∀ l ∈ r, Even df.nrows l := by
  have nom : ∀ d : Frame, NominalFrame d target → d.nominal = true := fun d hd => by
    unfold Frame.nominal
    rw [List.all_eq_true]
    intro c hc
    rw [List.all_eq_true]
    intro v hv
    obtain ⟨s, rfl⟩ := hd.texts c hc v hv
    rfl
  unfold listFit
  rw [h.rows]
  split
  · exact ⟨rfl, fun r h => by cases h⟩
  · rw [nom df hf, nom df' (shuffle_nominal h hf)]
    simp only [Bool.not_true, Bool.false_eq_true, if_false]
    cases hm : targetMask df target with
    | error e => rw [shuffle_target_error h hm]; exact ⟨rfl, fun r h => by cases h⟩
    | ok mask =>
      obtain ⟨h1, h2⟩ := targetMask_reorder h hf.wf hm
      have hl := perm_len h.perm
      rw [h1]
      simp only
      have hnew : SubgroupList.new (reorder π mask) (Bits.not (reorder π mask)) df.nrows = (SubgroupList.new mask (Bits.not mask) df.nrows).map (Spec.SubgroupList.reorder π) := by
        unfold SubgroupList.new
        rw [if_neg (by simp [reorder_len, hl]), if_neg (by simp [Bits.len_not, reorder_len, hl]), if_neg (by simp [h2]), if_neg (by simp [Bits.len_not, h2])]
        simp only [Except.map, Spec.SubgroupList.reorder, reorder_not h.perm h2, reorder_ones h.perm h2, List.map_nil]
      rw [hnew]
      cases hv : SubgroupList.new mask (Bits.not mask) df.nrows with
      | error e => exact ⟨rfl, fun r h => by cases h⟩
      | ok l0 =>
        cases cs with
        | error e => exact ⟨rfl, fun r h => by cases h⟩
        | ok cs =>
          simp only [Except.map]
          have he : Even df.nrows l0 := by
            unfold SubgroupList.new at hv
            rw [if_neg (by simp [h2]), if_neg (by simp [Bits.len_not, h2])] at hv
            cases hv
            exact ⟨rfl, h2, by simp [Bits.len_not, h2], by simp, by simp, by simp, by simp, by simp, by simp⟩
          have := buildLists_reorder h.perm hF l0 he k (cs.map some) (fun c hc => hcs cs rfl c (by simpa using hc))
          rw [List.map_map] at this ⊢
          exact this

include hp in
theorem text_reorder {l : SubgroupList} (he : Even n l) : listText (Spec.SubgroupList.reorder π l) = listText l := by
  have hg : ∀ (L : List Bits) (i : Nat), (∀ b ∈ L, b.length = n) → i < L.length → ((L.map (reorder π)).getD i []).ones = (L.getD i []).ones := by
    intro L i h hi
    have e1 : (L.map (reorder π)).getD i [] = reorder π L[i] := by simp [hi]
    have e2 : L.getD i [] = L[i] := by simp [hi]
    rw [e1, e2]
    exact reorder_ones hp (h _ (List.getElem_mem _))
  have hent : ∀ i ∈ List.range l.subs.length, (Spec.SubgroupList.reorder π l).entryText i = l.entryText i := by
    intro i hi
    rw [List.mem_range] at hi
    have f1 : (Spec.SubgroupList.reorder π l).pos = l.pos.map (reorder π) := rfl
    have f2 : (Spec.SubgroupList.reorder π l).neg = l.neg.map (reorder π) := rfl
    have f3 : (Spec.SubgroupList.reorder π l).origPos = l.origPos.map (reorder π) := rfl
    have f4 : (Spec.SubgroupList.reorder π l).origNeg = l.origNeg.map (reorder π) := rfl
    have f5 : (Spec.SubgroupList.reorder π l).subs = l.subs := rfl
    unfold SubgroupList.entryText
    rw [f1, f2, f3, f4, f5, hg _ _ he.pos (by rw [he.sizes.1]; exact hi), hg _ _ he.neg (by rw [he.sizes.2]; exact hi),
      hg _ _ he.origPos (by rw [he.origSizes.1]; exact hi), hg _ _ he.origNeg (by rw [he.origSizes.2]; exact hi)]
  have g1 : (Spec.SubgroupList.reorder π l).subs = l.subs := rfl
  have g2 : (Spec.SubgroupList.reorder π l).defPos = reorder π l.defPos := rfl
  have g3 : (Spec.SubgroupList.reorder π l).defNeg = reorder π l.defNeg := rfl
  have : (List.range l.subs.length).flatMap (Spec.SubgroupList.reorder π l).entryText = (List.range l.subs.length).flatMap l.entryText := by
    rw [List.flatMap_def, List.flatMap_def, List.map_congr_left hent]
  unfold listText SubgroupList.str
  simp only [g1, g2, g3, reorder_ones hp he.defPos, reorder_ones hp he.defNeg, this]

theorem info_reorder (h : Shuffled df df' π) {mask : Bits} (h2 : mask.length = df.nrows) : datasetInfo df' (reorder π mask) = datasetInfo df mask := by
  have hl : df'.cols.length = df.cols.length := by simpa using h.columns.length_eq
  have e1 := reorder_ones h.perm h2
  have e2 : (reorder π mask).length = mask.length := by rw [reorder_len, perm_len h.perm, h2]
  unfold datasetInfo
  rw [hl, h.rows, e1, e2]

theorem listRun_reorder (h : Shuffled df df' π) (hf : NominalFrame df target) (hF : Follows df.nrows π M M' φ K) (k : Nat) (input input' : Str) {cs : List Cand} {log : Str}
    (hi : loadCandidates df.nrows input = .ok (cs, log)) (hi' : loadCandidates df.nrows input' = .ok (cs.map (Spec.Cand.reorder π), log))
    (hcs : ∀ c ∈ cs, CandOk df.nrows c) : listRun M' k df' target input' = listRun M k df target input := by
  obtain ⟨a, b⟩ := listFit_reorder h hf hF k (.ok cs) (fun l hl => by cases hl; exact hcs)
  have nom : ∀ d : Frame, NominalFrame d target → d.nominal = true := fun d hd => by
    unfold Frame.nominal
    rw [List.all_eq_true]
    intro c hc
    rw [List.all_eq_true]
    intro v hv
    obtain ⟨s, rfl⟩ := hd.texts c hc v hv
    rfl
  unfold listRun
  rw [h.rows]
  split
  · rfl
  · rw [nom df hf, nom df' (shuffle_nominal h hf)]
    simp only [Bool.not_true, Bool.false_eq_true, if_false]
    cases hm : targetMask df target with
    | error e => rw [shuffle_target_error h hm]
    | ok mask =>
      obtain ⟨h1, h2⟩ := targetMask_reorder h hf.wf hm
      rw [h1, hi, hi']
      simp only
      simp only [Except.map] at a
      rw [a]
      cases hv : listFit M k df target (.ok cs) with
      | error e => rfl
      | ok res =>
        have e1 := info_reorder h h2
        have e2 : (res.map (Spec.SubgroupList.reorder π)).flatMap listText = res.flatMap listText := by
          rw [List.flatMap_def, List.flatMap_def, List.map_map]
          refine congrArg List.flatten (List.map_congr_left fun l hl => ?_)
          exact text_reorder h.perm (b _ hv l hl)
        exact congrArg Except.ok (congrArg₂ (· ++ ·) (congrArg (· ++ log) e1) e2)
end
end Verif

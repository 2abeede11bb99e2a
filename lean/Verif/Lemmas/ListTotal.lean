import Verif.Lemmas.ListGain
import Mathlib.Data.List.Perm.Subperm
/-! The runs of the subgroup-list algorithms as a whole: no exception when the candidates fit the data, and what follows
from the rules. -/
namespace Verif
open Spec
variable {G C : Type}

/-- evaluating a good candidate never raises -/
def EvalTotal (M : Miner G C) (P N : Bits) (good : Cand → Prop) : Prop :=
  ∀ (es : List Cand) (sl : SubgroupList) (c : Cand), SLInv P N (es.map Cand.triple) sl → good c →
    ∃ r, M.eval sl (es.foldl M.update M.init) c = .ok r ∧ r.1 = sl

theorem selectBest_total {M : Miner G C} {P N : Bits} {good : Cand → Prop} (hT : EvalTotal M P N good) {es : List Cand}
    {sl : SubgroupList} (hs : SLInv P N (es.map Cand.triple) sl) (suf : List (Option Cand))
    (hg : ∀ c, some c ∈ suf → good c) (i : Nat) (best : Option (Nat × Cand)) (g : G) :
    ∃ r, selectBest M (es.foldl M.update M.init) suf i sl best g = .ok r := by
  induction suf generalizing i best g with
  | nil => exact ⟨_, rfl⟩
  | cons o suf ih =>
    have hg' : ∀ c, some c ∈ suf → good c := fun c hc => hg c (List.mem_cons_of_mem _ hc)
    cases o with
    | none => unfold selectBest; exact ih hg' _ _ _
    | some c =>
      unfold selectBest
      obtain ⟨⟨sl', gain, cond⟩, h1, h2⟩ := hT es sl c hs (hg c (by simp))
      simp only at h2
      subst h2
      rw [h1]
      simp only
      split
      · exact ih hg' _ _ _
      · exact ih hg' _ _ _

theorem buildList_total {M : Miner G C} {R : Rule G} {P N : Bits} (hM : Implements M R P N) {good : Cand → Prop}
    (hT : EvalTotal M P N good) (hlen : ∀ c, good c → c.pos.length = P.length ∧ c.neg.length = P.length)
    (fuel : Nat) (es : List Cand) (sl : SubgroupList) (co : List (Option Cand))
    (hs : SLInv P N (es.map Cand.triple) sl) (hg : ∀ c, some c ∈ co → good c) :
    ∃ r, buildList M fuel sl (es.foldl M.update M.init) co = .ok r := by
  induction fuel generalizing es sl co with
  | zero => exact ⟨_, rfl⟩
  | succ fuel ih =>
    unfold buildList
    split
    · obtain ⟨⟨sl1, o⟩, hr⟩ := selectBest_total hT hs co hg 0 none M.zero
      obtain ⟨h1, g', h2⟩ := selectBest_spec hM hs co [] none M.zero (.inl ⟨rfl, hM.zero, by simp⟩) _ hr
      simp only [List.nil_append] at h1 h2
      subst h1
      rw [hr]
      cases o with
      | none => exact ⟨_, rfl⟩
      | some ic =>
        obtain ⟨i, c⟩ := ic
        simp only
        rcases h2 with ⟨h3, -⟩ | ⟨i', c', h3, -, h4, -⟩
        · cases h3
        cases h3
        have hgood : good c := hg c (List.mem_of_getElem? h4)
        obtain ⟨l', ha, hinv⟩ := slInv_add hs c.sub c.pos c.neg (hlen c hgood).1 (hlen c hgood).2
        rw [ha]
        simp only
        have e : M.update (es.foldl M.update M.init) c = (es ++ [c]).foldl M.update M.init := by simp
        rw [e]
        refine ih (es ++ [c]) l' _ (by rw [List.map_append]; exact hinv) ?_
        intro x hx
        unfold deleteRelated at hx
        obtain ⟨o, ho, hox⟩ := List.mem_map.1 hx
        cases o with
        | none => cases hox
        | some y =>
          simp only at hox
          split at hox
          · cases hox
          · cases hox
            rcases List.mem_or_eq_of_mem_set ho with h | h
            · exact hg x h
            · cases h
    · exact ⟨_, rfl⟩

theorem buildLists_total {M : Miner G C} {R : Rule G} {P N : Bits} (hM : Implements M R P N) {good : Cand → Prop}
    (hT : EvalTotal M P N good) (hlen : ∀ c, good c → c.pos.length = P.length ∧ c.neg.length = P.length) {cs : List Cand}
    (hcs : ∀ c ∈ cs, good c) {l0 : SubgroupList} (h0 : SLInv P N [] l0) (k : Nat) (E : List Nat) (co : List (Option Cand))
    (hl : Left R cs E co) : ∃ res, buildLists M l0 k co = .ok res := by
  have hgood : ∀ (E : List Nat) (co : List (Option Cand)), Left R cs E co → ∀ c, some c ∈ co → good c := by
    intro E co hl c hc
    obtain ⟨x, hx⟩ := List.mem_iff_getElem?.1 hc
    exact hcs c (List.mem_of_getElem? ((hl.2 x c).1 hx).1)
  induction k generalizing E co with
  | zero => exact ⟨_, rfl⟩
  | succ k ih =>
    obtain ⟨r, hr⟩ := buildList_total hM hT hlen (remaining co + 1) [] l0 co h0 (hgood E co hl)
    obtain ⟨idx', sl', co', h1, h2, h3, h4, h5⟩ := buildList_spec hM (E := E) _ [] l0 co h0 rfl (by intro j i h; simp at h)
      (by simp) (by simpa using hl) (Nat.lt_succ_self _) _ hr
    subst h1
    obtain ⟨rest, hrest⟩ := ih (E ++ idx') co' h5
    refine ⟨sl' :: rest, ?_⟩
    unfold buildLists
    simp only [List.foldl_nil] at hr
    rw [hr]
    simp only
    rw [hrest]

/-! ### consequences of the rules -/

/-- every element was available when chosen -/
def AvailSeq (related : Subgroup → Subgroup → Prop) (cs : List Cand) (E F : List Nat) : Prop :=
  ∀ m i, F[m]? = some i → i < cs.length ∧ Available related cs (E ++ F.take m) i

theorem AvailSeq.append {related : Subgroup → Subgroup → Prop} {cs : List Cand} {E a b : List Nat}
    (h1 : AvailSeq related cs E a) (h2 : AvailSeq related cs (E ++ a) b) : AvailSeq related cs E (a ++ b) := by
  intro m i hm
  by_cases hlt : m < a.length
  · rw [List.getElem?_append_left hlt] at hm
    rw [List.take_append_of_le_length (by omega)]
    exact h1 m i hm
  · rw [List.getElem?_append_right (by omega)] at hm
    have := h2 _ i hm
    rw [List.take_append]
    rw [List.take_of_length_le (by omega : a.length ≤ m)]
    rw [List.append_assoc] at this
    exact this

theorem availSeq_run {R : Rule G} {cs : List Cand} (run : List (List Nat)) (E : List Nat)
    (h : ∀ j idx, run[j]? = some idx → R.IsList cs (E ++ (run.take j).flatten) idx) :
    AvailSeq R.related cs E run.flatten := by
  induction run generalizing E with
  | nil => intro m i hm; simp at hm
  | cons idx run ih =>
    rw [List.flatten_cons]
    refine AvailSeq.append ?_ (ih (E ++ idx) ?_)
    · intro m i hm
      have := (h 0 idx rfl).pick m i hm
      obtain ⟨c, hc, hav, -⟩ := this
      refine ⟨?_, by simpa using hav⟩
      by_contra hcon
      rw [List.getElem?_eq_none (by omega)] at hc; cases hc
    · intro j idx' hj
      have := h (j + 1) idx' (by simpa using hj)
      simpa [List.append_assoc] using this

theorem AvailSeq.nodup {related : Subgroup → Subgroup → Prop} {cs : List Cand} {F : List Nat}
    (h : AvailSeq related cs [] F) : F.Nodup := by
  rw [List.nodup_iff_injective_get]
  intro a b hab
  by_contra hne
  have key : ∀ (x y : Fin F.length), x.val < y.val → F.get x = F.get y → False := by
    intro x y hxy he
    have := (h y.val (F.get y) (by simp)).2.1
    apply this
    rw [← he, List.nil_append]
    have hm := List.getElem_mem (l := F.take y.val) (n := x.val) (by simp; omega)
    rwa [List.getElem_take] at hm
  rcases Nat.lt_trichotomy a.val b.val with hlt | heq | hlt
  · exact key a b hlt hab
  · exact hne (Fin.ext heq)
  · exact key b a hlt hab.symm

theorem entriesAt_pairwise {related : Subgroup → Subgroup → Prop} {cs : List Cand} {F : List Nat}
    (h : AvailSeq related cs [] F) : (entriesAt cs F).Pairwise (fun a b => ¬ related a.sub b.sub) := by
  unfold entriesAt
  rw [List.pairwise_filterMap, List.pairwise_iff_getElem]
  intro i j hi hj hij a ha b hb
  have := (h j F[j] (List.getElem?_eq_getElem hj)).2.2 F[i] ?_ a b ha hb
  · exact this
  · rw [List.nil_append]
    have hm := List.getElem_mem (l := F.take j) (n := i) (by simp; omega)
    rwa [List.getElem_take] at hm

theorem filterMap_range {α : Type} (cs : List α) : (List.range cs.length).filterMap (cs[·]?) = cs := by
  induction cs with
  | nil => rfl
  | cons c cs ih =>
    rw [List.length_cons, List.range_succ_eq_map, List.filterMap_cons]
    simp only [List.getElem?_cons_zero, List.filterMap_map]
    congr 1

theorem entriesAt_subperm {cs : List Cand} {F : List Nat} (hn : F.Nodup) (hlt : ∀ i ∈ F, i < cs.length) :
    (entriesAt cs F).Subperm cs := by
  have h1 : F.Subperm (List.range cs.length) :=
    List.subperm_of_subset hn (fun i hi => List.mem_range.2 (hlt i hi))
  obtain ⟨l, hperm, hsub⟩ := h1
  refine ⟨l.filterMap (cs[·]?), hperm.filterMap _, ?_⟩
  have h2 := hsub.filterMap (cs[·]?)
  rwa [filterMap_range] at h2

theorem entriesAt_flatten (cs : List Cand) (run : List (List Nat)) :
    entriesAt cs run.flatten = run.flatMap (entriesAt cs) := by
  induction run with
  | nil => rfl
  | cons a run ih => rw [List.flatten_cons, List.flatMap_cons, ← ih]; simp [entriesAt]

theorem flatMap_entries {P N : Bits} {cs : List Cand} {res : List SubgroupList} {run : List (List Nat)}
    (h : List.Forall₂ (fun l idx => SLInv P N ((entriesAt cs idx).map Cand.triple) l) res run) :
    res.map entriesOf = run.map (entriesAt cs) := by
  induction h with
  | nil => rfl
  | cons h1 _ ih => rw [List.map_cons, List.map_cons, ih, entriesOf_eq h1]

end Verif

import Verif.Model.FPTreeNode
import Mathlib.Data.List.Induction
/-! C51: FP-tree nodes. -/
set_option linter.unusedSectionVars false
namespace Verif
open NodeHeap
variable {σ : Type} [DecidableEq σ]

namespace Spec
/-- a history in which a node is only given to `add_child` while it has no parent, and never below itself directly -/
def Disciplined : NodeHeap σ → List (Op σ) → Prop
  | _, [] => True
  | h, op :: ops =>
    (match op with
      | .addChild p c => c ≠ p ∧ h.isChildOf c none = true ∧ p < h.length
      | _ => True) ∧ Disciplined (h.step op) ops
end Spec
open Spec

/-- the part of the invariant that every history preserves -/
structure Stored (h : NodeHeap σ) : Prop where
  own : ∀ (p : Nat) (np : FPNode σ), h[p]? = some np → ∀ e ∈ np.childs, ∃ nc : FPNode σ, h[e.2]? = some nc ∧ nc.sel = e.1
  keys : ∀ (p : Nat) (np : FPNode σ), h[p]? = some np → (np.childs.map (·.1)).Nodup

/-- an update that changes no selector and no children list keeps the invariant -/
theorem stored_modify_parent {h : NodeHeap σ} (hs : Stored h) (c : Nat) (v : Option Nat) :
    Stored (h.modify c (fun n => { n with parent := v })) := by
  have key : ∀ (q : Nat) (nq : FPNode σ), (h.modify c (fun n => { n with parent := v }))[q]? = some nq →
      ∃ nq' : FPNode σ, h[q]? = some nq' ∧ nq'.childs = nq.childs ∧ nq'.sel = nq.sel := by
    intro q nq hq
    rw [List.getElem?_modify] at hq
    cases hh : h[q]? with
    | none => rw [hh] at hq; cases hq
    | some m =>
      rw [hh] at hq
      simp only [Option.map_eq_map, Option.map_some, Option.some.injEq] at hq
      refine ⟨m, rfl, ?_⟩
      split at hq <;> subst hq <;> exact ⟨rfl, rfl⟩
  constructor
  · intro p np hp e he
    obtain ⟨np', h1, h2, -⟩ := key p np hp
    obtain ⟨nc, h3, h4⟩ := hs.own p np' h1 e (by rw [h2]; exact he)
    rw [List.getElem?_modify, h3]
    refine ⟨_, rfl, ?_⟩
    split <;> exact h4
  · intro p np hp
    obtain ⟨np', h1, h2, -⟩ := key p np hp
    rw [← h2]
    exact hs.keys p np' h1

/-- an update of the children of `p` -/
theorem stored_modify_childs {h : NodeHeap σ} (hs : Stored h) (p : Nat) (f : List (σ × Nat) → List (σ × Nat))
    (hf1 : ∀ np : FPNode σ, h[p]? = some np → ∀ e ∈ f np.childs, ∃ nc : FPNode σ, h[e.2]? = some nc ∧ nc.sel = e.1)
    (hf2 : ∀ np : FPNode σ, h[p]? = some np → ((f np.childs).map (·.1)).Nodup) :
    Stored (h.modify p (fun n => { n with childs := f n.childs })) := by
  have sel : ∀ (q : Nat) (nq : FPNode σ), h[q]? = some nq → ∃ nq' : FPNode σ, (h.modify p (fun n => { n with childs := f n.childs }))[q]? = some nq' ∧
      nq'.sel = nq.sel := by
    intro q nq hq
    rw [List.getElem?_modify, hq]
    refine ⟨_, rfl, ?_⟩
    split <;> rfl
  have key : ∀ (q : Nat) (nq : FPNode σ), (h.modify p (fun n => { n with childs := f n.childs }))[q]? = some nq →
      ∃ nq' : FPNode σ, h[q]? = some nq' ∧ nq.childs = if p = q then f nq'.childs else nq'.childs := by
    intro q nq hq
    rw [List.getElem?_modify] at hq
    cases hh : h[q]? with
    | none => rw [hh] at hq; cases hq
    | some m =>
      rw [hh] at hq
      simp only [Option.map_eq_map, Option.map_some, Option.some.injEq] at hq
      refine ⟨m, rfl, ?_⟩
      split at hq <;> subst hq
      · rw [if_pos ‹_›]
      · rw [if_neg ‹_›]
  constructor
  · intro q nq hq e he
    obtain ⟨nq', h1, h2⟩ := key q nq hq
    have : ∃ nc : FPNode σ, h[e.2]? = some nc ∧ nc.sel = e.1 := by
      rw [h2] at he
      split at he
      · rename_i hpq
        subst hpq
        exact hf1 nq' h1 e he
      · exact hs.own q nq' h1 e he
    obtain ⟨nc, h3, h4⟩ := this
    obtain ⟨nc', h5, h6⟩ := sel _ nc h3
    exact ⟨nc', h5, h6.trans h4⟩
  · intro q nq hq
    obtain ⟨nq', h1, h2⟩ := key q nq hq
    rw [h2]
    split
    · rename_i hpq
      subst hpq
      exact hf2 nq' h1
    · exact hs.keys q nq' h1

theorem stored_step {h : NodeHeap σ} (hs : Stored h) (op : Op σ) : Stored (h.step op) := by
  cases op with
  | create s c =>
    simp only [step, create]
    constructor
    · intro p np hp e he
      rw [List.getElem?_append] at hp
      split at hp
      · obtain ⟨nc, h1, h2⟩ := hs.own p np hp e he
        exact ⟨nc, by rw [List.getElem?_append_left (List.getElem?_eq_some_iff.1 h1).1]; exact h1, h2⟩
      · cases hp' : ([⟨s, c, [], none⟩] : NodeHeap σ)[p - h.length]? with
        | none => rw [hp'] at hp; cases hp
        | some x =>
          rw [hp'] at hp
          cases hp
          have := List.mem_of_getElem? hp'
          simp at this
          rw [this] at he
          cases he
    · intro p np hp
      rw [List.getElem?_append] at hp
      split at hp
      · exact hs.keys p np hp
      · have := List.mem_of_getElem? hp
        simp at this
        rw [this]
        simp
  | addChild p c =>
    simp only [step, addChild]
    cases hp : h[p]? with
    | none => exact hs
    | some np =>
    cases hc : h[c]? with
    | none => exact hs
    | some nc =>
      simp only
      split
      · exact hs
      rename_i hnew
      have h1 := stored_modify_parent hs c (some p)
      apply stored_modify_childs h1 p (fun l => l ++ [(nc.sel, c)])
      · intro np' hp' e he
        rcases List.mem_append.1 he with he | he
        · exact h1.own p np' hp' e he
        · rw [List.mem_singleton.1 he]
          rw [List.getElem?_modify, hc]
          exact ⟨_, rfl, by simp⟩
      · intro np' hp'
        have hk := h1.keys p np' hp'
        rw [List.getElem?_modify, hp] at hp'
        have hsame : np'.childs = np.childs := by
          simp only [Option.map_eq_map, Option.map_some, Option.some.injEq] at hp'
          split at hp' <;> subst hp' <;> rfl
        rw [hsame] at hk ⊢
        rw [List.map_append, List.nodup_append]
        refine ⟨hk, by simp, ?_⟩
        intro a ha b hb hab
        simp at hb
        subst hab hb
        exact hnew (by simpa using ha)
  | deleteChild p s =>
    simp only [step, deleteChild]
    cases hp : h[p]? with
    | none => exact hs
    | some np =>
    simp only
    cases hl : np.childs.lookup s with
    | none => exact hs
    | some c =>
      simp only
      have h1 := stored_modify_parent hs c none
      apply stored_modify_childs h1 p (fun l => l.filter (fun e => e.1 ≠ s))
      · intro np' hp' e he
        exact h1.own p np' hp' e (List.mem_filter.1 he).1
      · intro np' hp'
        exact (h1.keys p np' hp').sublist (List.filter_sublist.map _)

theorem stored_run (ops : List (Op σ)) : Stored (run ([] : NodeHeap σ) ops) := by
  induction ops using List.reverseRecOn with
  | nil => exact ⟨by simp [run], by simp [run]⟩
  | append_singleton ops op ih =>
    have : run ([] : NodeHeap σ) (ops ++ [op]) = (run [] ops).step op := by simp [run]
    rw [this]
    exact stored_step ih op

/-- C51, for every history: a child found under a selector has that selector, is unique, and `has_this_child` recognises
exactly the children stored. -/
theorem C51_stored (ops : List (Op σ)) (p c : Nat) (s : σ) :
    let h := run ([] : NodeHeap σ) ops
    (h.getChild p s = some c → ∃ nc : FPNode σ, h[c]? = some nc ∧ nc.sel = s) ∧
    (h.hasThisChild p c = true ↔ ∃ s', h.getChild p s' = some c) ∧
    (∀ np : FPNode σ, h[p]? = some np → (np.childs.map (·.1)).Nodup) := by
  intro h
  have hs : Stored h := stored_run ops
  have g : ∀ s, h.getChild p s = some c → ∃ nc : FPNode σ, h[c]? = some nc ∧ nc.sel = s := by
    intro s hg
    unfold getChild at hg
    cases hp : h[p]? with
    | none => rw [hp] at hg; cases hg
    | some np =>
      rw [hp] at hg
      obtain ⟨l1, l2, h2, -⟩ := List.lookup_eq_some_iff.1 hg
      exact hs.own p np hp (s, c) (by simp [h2])
  refine ⟨g s, ?_, hs.keys p⟩
  constructor
  · intro hh
    unfold hasThisChild at hh
    cases hp : h[p]? with
    | none => rw [hp] at hh; cases hh
    | some np =>
    cases hc : h[c]? with
    | none => rw [hp, hc] at hh; cases hh
    | some nc =>
      rw [hp, hc] at hh
      refine ⟨nc.sel, ?_⟩
      unfold getChild
      rw [hp]
      simpa using hh
  · rintro ⟨s', hs'⟩
    obtain ⟨nc, h1, h2⟩ := g s' hs'
    unfold getChild at hs'
    unfold hasThisChild
    cases hp : h[p]? with
    | none => rw [hp] at hs'; cases hs'
    | some np =>
      rw [hp] at hs'
      simp only [h1]
      have hs2 : np.childs.lookup s' = some c := hs'
      rw [h2, hs2]
      simp

/-- C51: adding a second child with the same selector is refused and changes nothing; otherwise the child is found under
its selector and its parent is the node. -/
theorem C51_add (ops : List (Op σ)) (p c : Nat) (nc : FPNode σ) :
    let h := run ([] : NodeHeap σ) ops
    p < h.length → h[c]? = some nc →
    ((h.addChild p c).2 = true ↔ ∃ c', h.getChild p nc.sel = some c') ∧
    ((h.addChild p c).2 = true → (h.addChild p c).1 = h) ∧
    ((h.addChild p c).2 = false →
      (h.addChild p c).1.getChild p nc.sel = some c ∧ (h.addChild p c).1.isChildOf c (some p) = true ∧
      ∀ q s, q ≠ p ∨ s ≠ nc.sel → (h.addChild p c).1.getChild q s = h.getChild q s) := by
  intro h hp hc
  have hp' : h[p]? = some h[p] := List.getElem?_eq_getElem hp
  have hmem : ∀ (l : List (σ × Nat)) (s : σ), (l.map (·.1)).contains s = true ↔ ∃ c', l.lookup s = some c' := by
    intro l s
    cases hl : l.lookup s with
    | none =>
      rw [List.lookup_eq_none_iff] at hl
      simp only [List.contains_iff_mem, List.mem_map, reduceCtorEq, exists_false, iff_false, not_exists, not_and]
      intro e he hes
      have := hl e he
      simp [hes] at this
    | some c' =>
      obtain ⟨l1, l2, h2, -⟩ := List.lookup_eq_some_iff.1 hl
      simp only [Option.some.injEq, exists_eq', iff_true]
      rw [h2]
      simp
  unfold addChild getChild
  simp only [hp', hc]
  by_cases hdup : (h[p].childs.map (·.1)).contains nc.sel = true
  · rw [if_pos hdup]
    refine ⟨by simpa using (hmem _ _).1 hdup, by simp, by simp⟩
  · rw [if_neg hdup]
    have hnone : h[p].childs.lookup nc.sel = none := by
      cases hl : h[p].childs.lookup nc.sel with
      | none => rfl
      | some c' => exact absurd ((hmem _ _).2 ⟨c', hl⟩) hdup
    refine ⟨by simp [hnone], by simp, fun _ => ⟨?_, ?_, ?_⟩⟩
    · simp only [List.getElem?_modify, hp']
      simp only [Option.map_eq_map, Option.map_some]
      have : ∀ x : FPNode σ, x.childs = h[p].childs →
          List.lookup nc.sel (x.childs ++ [(nc.sel, c)]) = some c := by
        intro x hx
        rw [hx, List.lookup_append, hnone]
        simp
      simp only [if_true]
      apply this
      split <;> rfl
    · unfold isChildOf
      simp only [List.getElem?_modify, hc]
      simp only [Option.map_eq_map, Option.map_some]
      split <;> simp
    · intro q s hqs
      simp only [List.getElem?_modify]
      cases hq : h[q]? with
      | none => rfl
      | some nq =>
        simp only [Option.map_eq_map, Option.map_some]
        by_cases hpq : p = q
        · subst hpq
          rw [hp'] at hq
          cases hq
          have hs : s ≠ nc.sel := by
            rcases hqs with h1 | h1
            · exact absurd rfl h1
            · exact h1
          simp only [if_true]
          have : ∀ x : FPNode σ, x.childs = h[p].childs →
              List.lookup s (x.childs ++ [(nc.sel, c)]) = List.lookup s h[p].childs := by
            intro x hx
            rw [hx, List.lookup_append]
            have : List.lookup s [(nc.sel, c)] = none := by
              simp [List.lookup_cons, beq_false_of_ne hs]
            rw [this]
            simp
          apply this
          split <;> rfl
        · rw [if_neg hpq]
          split <;> rfl

/-- `c` is registered among the children of `p` -/
def Chi (h : NodeHeap σ) (p c : Nat) : Prop := ∃ (np : FPNode σ) (s : σ), h[p]? = some np ∧ (s, c) ∈ np.childs
/-- the parent link of `c` is `p` -/
def Par (h : NodeHeap σ) (c p : Nat) : Prop := ∃ nc : FPNode σ, h[c]? = some nc ∧ nc.parent = some p

theorem isChildOf_iff (h : NodeHeap σ) (c p : Nat) : h.isChildOf c (some p) = true ↔ Par h c p := by
  unfold isChildOf Par
  cases h[c]? with
  | none => simp
  | some nc => simp

theorem isChildOf_none_iff (h : NodeHeap σ) (c : Nat) : h.isChildOf c none = true ↔ ∃ nc : FPNode σ, h[c]? = some nc ∧ nc.parent = none := by
  unfold isChildOf
  cases h[c]? with
  | none => simp
  | some nc => simp

theorem lookup_of_mem {l : List (σ × Nat)} (hk : (l.map (·.1)).Nodup) {s : σ} {c : Nat} (hm : (s, c) ∈ l) : l.lookup s = some c := by
  induction l with
  | nil => cases hm
  | cons e l ih =>
    obtain ⟨a, b⟩ := e
    rw [List.map_cons, List.nodup_cons] at hk
    rcases List.mem_cons.1 hm with h | h
    · cases h; simp
    · have : s ≠ a := by
        rintro rfl
        exact hk.1 (List.mem_map.2 ⟨(s, c), h, rfl⟩)
      rw [List.lookup_cons, beq_false_of_ne this]
      exact ih hk.2 h

theorem hasThisChild_iff {h : NodeHeap σ} (hs : Stored h) (p c : Nat) : h.hasThisChild p c = true ↔ Chi h p c := by
  unfold hasThisChild Chi
  constructor
  · intro hh
    cases hp : h[p]? with
    | none => rw [hp] at hh; cases hh
    | some np =>
    cases hc : h[c]? with
    | none => rw [hp, hc] at hh; cases hh
    | some nc =>
      rw [hp, hc] at hh
      simp at hh
      obtain ⟨l1, l2, h2, -⟩ := List.lookup_eq_some_iff.1 hh
      exact ⟨np, nc.sel, rfl, by simp [h2]⟩
  · rintro ⟨np, s, h1, h2⟩
    obtain ⟨nc, h3, h4⟩ := hs.own p np h1 (s, c) h2
    simp only at h3 h4
    rw [h1, h3]
    simp only [h4]
    rw [lookup_of_mem (hs.keys p np h1) h2]
    simp

theorem linked_step {h : NodeHeap σ} (hs : Stored h) (hl : ∀ p c, Chi h p c ↔ Par h c p) (op : Op σ)
    (hd : match op with
      | .addChild p c => c ≠ p ∧ h.isChildOf c none = true ∧ p < h.length
      | _ => True) : ∀ p c, Chi (h.step op) p c ↔ Par (h.step op) c p := by
  cases op with
  | create s cs =>
    intro p c
    have e1 : Chi (h.step (.create s cs)) p c ↔ Chi h p c := by
      unfold Chi
      simp only [step, create]
      constructor
      · rintro ⟨np, s', h1, h2⟩
        rw [List.getElem?_append] at h1
        split at h1
        · exact ⟨np, s', h1, h2⟩
        · have := List.mem_of_getElem? h1
          simp at this
          rw [this] at h2
          cases h2
      · rintro ⟨np, s', h1, h2⟩
        exact ⟨np, s', by rw [List.getElem?_append_left (List.getElem?_eq_some_iff.1 h1).1]; exact h1, h2⟩
    have e2 : Par (h.step (.create s cs)) c p ↔ Par h c p := by
      unfold Par
      simp only [step, create]
      constructor
      · rintro ⟨nc, h1, h2⟩
        rw [List.getElem?_append] at h1
        split at h1
        · exact ⟨nc, h1, h2⟩
        · have := List.mem_of_getElem? h1
          simp at this
          rw [this] at h2
          cases h2
      · rintro ⟨nc, h1, h2⟩
        exact ⟨nc, by rw [List.getElem?_append_left (List.getElem?_eq_some_iff.1 h1).1]; exact h1, h2⟩
    rw [e1, e2, hl]
  | addChild p c =>
    obtain ⟨hne, hnone, hp⟩ := hd
    obtain ⟨nc, hc, hpar⟩ := (isChildOf_none_iff h c).1 hnone
    have hp' : h[p]? = some h[p] := List.getElem?_eq_getElem hp
    simp only [step, addChild, hp', hc]
    split
    · exact hl
    intro q d
    have e1 : Chi ((h.modify c (fun n => { n with parent := some p })).modify p
        (fun n => { n with childs := n.childs ++ [(nc.sel, c)] })) q d ↔ Chi h q d ∨ (q = p ∧ d = c) := by
      unfold Chi
      simp only [List.getElem?_modify]
      by_cases hq : q = p
      · subst hq
        rw [hp']
        simp only [Option.map_eq_map, Option.map_some, if_true, Option.some.injEq, true_and, if_neg hne]
        simp only [exists_and_left, exists_eq_left', List.mem_append, List.mem_singleton, Prod.mk.injEq]
        constructor
        · rintro ⟨s, h1 | ⟨-, h1⟩⟩
          · exact .inl ⟨s, h1⟩
          · exact .inr h1
        · rintro (⟨s, h1⟩ | h1)
          · exact ⟨s, .inl h1⟩
          · exact ⟨nc.sel, .inr ⟨rfl, h1⟩⟩
      · have hq' : ¬ p = q := fun hh => hq hh.symm
        simp only [hq, hq', if_false, false_and, or_false]
        constructor
        · rintro ⟨np, s, h1, h2⟩
          cases hh : h[q]? with
          | none => rw [hh] at h1; cases h1
          | some m =>
            rw [hh] at h1
            simp only [Option.map_eq_map, Option.map_some, Option.some.injEq] at h1
            refine ⟨m, s, rfl, ?_⟩
            split at h1 <;> subst h1 <;> exact h2
        · rintro ⟨np, s, h1, h2⟩
          rw [h1]
          refine ⟨_, s, rfl, ?_⟩
          dsimp only
          split <;> exact h2
    have e2 : Par ((h.modify c (fun n => { n with parent := some p })).modify p
        (fun n => { n with childs := n.childs ++ [(nc.sel, c)] })) d q ↔ (d = c ∧ q = p) ∨ (d ≠ c ∧ Par h d q) := by
      unfold Par
      simp only [List.getElem?_modify]
      by_cases hd : d = c
      · subst hd
        rw [hc]
        simp
        split <;> simp [@eq_comm _ p q]
      · have hd' : ¬ c = d := fun hh => hd hh.symm
        simp only [hd', if_false, hd, false_and, false_or, not_false_eq_true, ne_eq, true_and]
        constructor
        · rintro ⟨x, h1, h2⟩
          cases hh : h[d]? with
          | none => rw [hh] at h1; cases h1
          | some m =>
            rw [hh] at h1
            simp only [Option.map_eq_map, Option.map_some, Option.some.injEq] at h1
            refine ⟨m, rfl, ?_⟩
            split at h1 <;> subst h1 <;> exact h2
        · rintro ⟨x, h1, h2⟩
          rw [h1]
          refine ⟨_, rfl, ?_⟩
          dsimp only
          split <;> exact h2
    rw [e1, e2, hl]
    constructor
    · rintro (h1 | ⟨h1, h2⟩)
      · refine .inr ⟨?_, h1⟩
        rintro rfl
        obtain ⟨x, h2, h3⟩ := h1
        rw [hc] at h2
        cases h2
        rw [hpar] at h3
        cases h3
      · exact .inl ⟨h2, h1⟩
    · rintro (⟨h1, h2⟩ | h1)
      · exact .inr ⟨h2, h1⟩
      · exact .inl h1.2
  | deleteChild p s =>
    simp only [step, deleteChild]
    cases hp : h[p]? with
    | none => exact hl
    | some np =>
    simp only
    cases hlk : np.childs.lookup s with
    | none => exact hl
    | some c =>
      simp only
      have hmem : (s, c) ∈ np.childs := by
        obtain ⟨l1, l2, h2, -⟩ := List.lookup_eq_some_iff.1 hlk
        simp [h2]
      obtain ⟨nc, hc, hsel⟩ := hs.own p np hp (s, c) hmem
      simp only at hc hsel
      have hparc : Par h c p := (hl p c).1 ⟨np, s, hp, hmem⟩
      have honly : ∀ q, Par h c q → q = p := by
        rintro q ⟨x, h1, h2⟩
        obtain ⟨y, h3, h4⟩ := hparc
        rw [h1] at h3
        cases h3
        rw [h2] at h4
        cases h4
        rfl
      intro q d
      have e1 : Chi ((h.modify c (fun n => { n with parent := none })).modify p
          (fun n => { n with childs := n.childs.filter (fun e => e.1 ≠ s) })) q d ↔ Chi h q d ∧ ¬ (q = p ∧ d = c) := by
        unfold Chi
        simp only [List.getElem?_modify]
        by_cases hq : q = p
        · subst hq
          rw [hp]
          simp only [Option.map_eq_map, Option.map_some, if_true, Option.some.injEq, true_and]
          have hch : ∀ x : FPNode σ, x.childs = np.childs →
              ((∃ s', (s', d) ∈ x.childs.filter (fun e => e.1 ≠ s)) ↔ (∃ s', (s', d) ∈ np.childs) ∧ ¬ d = c) := by
            intro x hx
            rw [hx]
            simp only [List.mem_filter, ne_eq, decide_not, Bool.not_eq_eq_eq_not, Bool.not_true, decide_eq_false_iff_not]
            constructor
            · rintro ⟨s', h1, h2⟩
              refine ⟨⟨s', h1⟩, ?_⟩
              rintro rfl
              obtain ⟨x, h3, h4⟩ := hs.own q np hp (s', d) h1
              simp only at h3 h4
              rw [hc] at h3
              cases h3
              exact h2 (h4.symm.trans hsel)
            · rintro ⟨⟨s', h1⟩, h2⟩
              refine ⟨s', h1, ?_⟩
              rintro rfl
              have := lookup_of_mem (hs.keys q np hp) h1
              rw [hlk] at this
              cases this
              exact h2 rfl
          constructor
          · rintro ⟨x, s', h1, h2⟩
            subst h1
            obtain ⟨h3, h4⟩ := (hch (if c = q then { np with parent := none } else np) (by split <;> rfl)).1 ⟨s', h2⟩
            obtain ⟨s'', h5⟩ := h3
            exact ⟨⟨np, s'', rfl, h5⟩, h4⟩
          · rintro ⟨⟨x, s', h1, h2⟩, h3⟩
            subst h1
            obtain ⟨s'', h5⟩ := (hch (if c = q then { np with parent := none } else np) (by split <;> rfl)).2 ⟨⟨s', h2⟩, h3⟩
            exact ⟨_, s'', rfl, h5⟩
        · have hq' : ¬ p = q := fun hh => hq hh.symm
          simp only [hq, hq', if_false, false_and, not_false_eq_true, and_true]
          constructor
          · rintro ⟨np, s, h1, h2⟩
            cases hh : h[q]? with
            | none => rw [hh] at h1; cases h1
            | some m =>
              rw [hh] at h1
              simp only [Option.map_eq_map, Option.map_some, Option.some.injEq] at h1
              refine ⟨m, s, rfl, ?_⟩
              split at h1 <;> subst h1 <;> exact h2
          · rintro ⟨np, s, h1, h2⟩
            rw [h1]
            refine ⟨_, s, rfl, ?_⟩
            dsimp only
            split <;> exact h2
      have e2 : Par ((h.modify c (fun n => { n with parent := none })).modify p
          (fun n => { n with childs := n.childs.filter (fun e => e.1 ≠ s) })) d q ↔ d ≠ c ∧ Par h d q := by
        unfold Par
        simp only [List.getElem?_modify]
        by_cases hd : d = c
        · subst hd
          rw [hc]
          simp
          split <;> simp
        · have hd' : ¬ c = d := fun hh => hd hh.symm
          simp only [hd', if_false, hd, not_false_eq_true, ne_eq, true_and]
          constructor
          · rintro ⟨x, h1, h2⟩
            cases hh : h[d]? with
            | none => rw [hh] at h1; cases h1
            | some m =>
              rw [hh] at h1
              simp only [Option.map_eq_map, Option.map_some, Option.some.injEq] at h1
              refine ⟨m, rfl, ?_⟩
              split at h1 <;> subst h1 <;> exact h2
          · rintro ⟨x, h1, h2⟩
            rw [h1]
            refine ⟨_, rfl, ?_⟩
            dsimp only
            split <;> exact h2
      rw [e1, e2, hl]
      constructor
      · rintro ⟨h1, h2⟩
        refine ⟨?_, h1⟩
        rintro rfl
        exact h2 ⟨honly q h1, rfl⟩
      · rintro ⟨h1, h2⟩
        exact ⟨h2, fun hh => h1 hh.2⟩

theorem linked_run (h : NodeHeap σ) (hs : Stored h) (hl : ∀ p c, Chi h p c ↔ Par h c p) (ops : List (Op σ))
    (hd : Disciplined h ops) : Stored (h.run ops) ∧ ∀ p c, Chi (h.run ops) p c ↔ Par (h.run ops) c p := by
  induction ops generalizing h with
  | nil => exact ⟨hs, hl⟩
  | cons op ops ih =>
    have : h.run (op :: ops) = (h.step op).run ops := by simp [run]
    rw [this]
    exact ih _ (stored_step hs op) (linked_step hs hl op hd.1) hd.2

/-- C51, parent links: after any history in which only parentless nodes are given to `add_child`, a node has another as
its child exactly when the parent link of the latter points to the former. -/
theorem C51_parent (ops : List (Op σ)) (hd : Disciplined ([] : NodeHeap σ) ops) (p c : Nat) :
    (run ([] : NodeHeap σ) ops).hasThisChild p c = true ↔ (run ([] : NodeHeap σ) ops).isChildOf c (some p) = true := by
  obtain ⟨h1, h2⟩ := linked_run ([] : NodeHeap σ) ⟨by simp, by simp⟩ (by simp [Chi, Par]) ops hd
  rw [hasThisChild_iff h1, isChildOf_iff, h2]

/-- The unrestricted claim about parent links is false: a node added to two parents stays registered with the first, whose
parent link it no longer has. -/
theorem C51_fails : ∃ (ops : List (Op Nat)) (p c : Nat), (run ([] : NodeHeap Nat) ops).hasThisChild p c = true ∧
    (run ([] : NodeHeap Nat) ops).isChildOf c (some p) = false :=
  ⟨[.create 0 [], .create 1 [], .create 2 [], .addChild 0 2, .addChild 1 2], 0, 2, by decide, by decide⟩

example : ∃ ops : List (Op Nat), Disciplined ([] : NodeHeap Nat) ops ∧
    (run ([] : NodeHeap Nat) ops).hasThisChild 0 2 = true ∧ (run ([] : NodeHeap Nat) ops).hasThisChild 0 1 = false :=
  ⟨[.create 0 [], .create 1 [], .create 2 [], .addChild 0 1, .addChild 0 2, .deleteChild 0 1],
    by simp [Disciplined, step, create, addChild, isChildOf], by decide, by decide⟩

end Verif

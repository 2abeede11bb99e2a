import Verif.Model.SubgroupList
import Verif.Lemmas.Bits
import Mathlib.Tactic.Linarith
import Mathlib.Data.List.Induction
/-! C21, C22: subgroup lists. -/
namespace Verif

namespace Spec
/-- the abstract stack of a history: what is in the list after the calls (calls with bitarrays of a wrong length are
refused) -/
def slStack (rows : Nat) : List SLOp → List (Subgroup × Bits × Bits)
  | ops => ops.foldl (fun st op => match op with
      | .add s p n => if p.length = rows ∧ n.length = rows then st ++ [(s, p, n)] else st
      | .deleteLast => st.dropLast) []

/-- bit `i` of the positional bitarray of entry `k`: the row is in the data set's class `D`, in the entry's own bitarray
and in no earlier one -/
def Positional (D : Bits) (orig : List Bits) (k i : Nat) : Prop :=
  D.get i = true ∧ (orig.getD k []).get i = true ∧ ∀ j, j < k → (orig.getD j []).get i = false

/-- bit `i` of the default rule -/
def Default (D : Bits) (orig : List Bits) (i : Nat) : Prop :=
  D.get i = true ∧ ∀ j, j < orig.length → (orig.getD j []).get i = false
end Spec
open Spec

/-- the invariant of one class (positives or negatives) -/
structure ClassInv (D : Bits) (dflt : Bits) (pos orig : List Bits) : Prop where
  lenD : dflt.length = D.length
  lenP : pos.length = orig.length
  lenO : ∀ o ∈ orig, o.length = D.length
  lenQ : ∀ o ∈ pos, o.length = D.length
  hpos : ∀ k i, k < pos.length → ((pos.getD k []).get i = true ↔ Positional D orig k i)
  hdef : ∀ i, (dflt.get i = true ↔ Default D orig i)

theorem ClassInv.nil (D : Bits) : ClassInv D D [] [] :=
  ⟨rfl, rfl, by simp, by simp, by simp, by simp [Default]⟩

theorem getD_append_lt {α : Type} (l : List α) (x d : α) (k : Nat) (h : k < l.length) : (l ++ [x]).getD k d = l.getD k d := by
  simp [List.getD_eq_getElem?_getD, List.getElem?_append_left h]

theorem getD_append_eq {α : Type} (l : List α) (x d : α) : (l ++ [x]).getD l.length d = x := by
  simp [List.getD_eq_getElem?_getD]

theorem ClassInv.add {D dflt : Bits} {pos orig : List Bits} (h : ClassInv D dflt pos orig) (p : Bits)
    (hp : p.length = D.length) :
    ClassInv D (dflt.and (p.and dflt).not) (pos ++ [p.and dflt]) (orig ++ [p]) := by
  have hl := h.lenD
  have hP := h.lenP
  constructor
  · rw [Bits.len_and, Bits.len_not, Bits.len_and]; omega
  · simp [hP]
  · intro o ho
    rcases List.mem_append.1 ho with ho | ho
    · exact h.lenO o ho
    · rw [List.mem_singleton.1 ho, hp]
  · intro o ho
    rcases List.mem_append.1 ho with ho | ho
    · exact h.lenQ o ho
    · rw [List.mem_singleton.1 ho, Bits.len_and]; omega
  · intro k i hk
    rw [List.length_append] at hk
    by_cases hlt : k < pos.length
    · rw [getD_append_lt _ _ _ _ hlt, h.hpos k i hlt]
      unfold Positional
      rw [getD_append_lt _ _ _ _ (by omega)]
      refine and_congr_right fun _ => and_congr_right fun _ => ?_
      constructor <;> intro hh j hj
      · rw [getD_append_lt _ _ _ _ (by omega)]; exact hh j hj
      · have := hh j hj
        rwa [getD_append_lt _ _ _ _ (by omega)] at this
    · have hk' : k = pos.length := by simp at hk; omega
      subst hk'
      rw [getD_append_eq, Bits.get_and, Bool.and_eq_true, h.hdef i]
      unfold Positional Default
      rw [hP, getD_append_eq]
      constructor
      · rintro ⟨a, b, c⟩
        refine ⟨b, a, fun j hj => ?_⟩
        rw [getD_append_lt _ _ _ _ hj]; exact c j hj
      · rintro ⟨b, a, c⟩
        refine ⟨a, b, fun j hj => ?_⟩
        have := c j hj
        rwa [getD_append_lt _ _ _ _ hj] at this
  · intro i
    rw [Bits.get_and, Bits.get_not, Bits.get_and, Bits.len_and]
    have hd := h.hdef i
    by_cases hi : dflt.get i = true
    · have hi' : i < D.length := by
        by_contra hc
        rw [Bits.get_ge _ _ (by omega)] at hi
        cases hi
      have hd' := hd.1 hi
      rw [hi]
      simp only [Bool.true_and, Bool.and_true, Bool.and_eq_true, decide_eq_true_eq, Bool.not_eq_true']
      constructor
      · rintro ⟨-, hpi⟩
        refine ⟨hd'.1, fun j hj => ?_⟩
        by_cases hj' : j < orig.length
        · rw [getD_append_lt _ _ _ _ hj']; exact hd'.2 j hj'
        · have : j = orig.length := by simp at hj; omega
          subst this
          rw [getD_append_eq, hpi]
      · rintro ⟨_, c⟩
        have := c orig.length (by simp)
        rw [getD_append_eq] at this
        exact ⟨by omega, this⟩
    · constructor
      · intro hc
        simp [hi] at hc
      · rintro ⟨a, c⟩
        exfalso
        apply hi
        rw [hd]
        refine ⟨a, fun j hj => ?_⟩
        have := c j (by simp; omega)
        rwa [getD_append_lt _ _ _ _ hj] at this

/-- undoing on one class -/
theorem class_undo (D dflt p : Bits) (h1 : dflt.length = D.length) (h2 : p.length = D.length) :
    (dflt.and (p.and dflt).not).or (p.and dflt) = dflt := by
  apply Bits.ext
  · rw [Bits.len_or, Bits.len_and, Bits.len_not, Bits.len_and]; omega
  · intro i
    rw [Bits.get_or _ _ _ (by rw [Bits.len_and, Bits.len_not, Bits.len_and]; omega), Bits.get_and, Bits.get_not,
      Bits.get_and, Bits.len_and]
    by_cases hi : i < D.length
    · have : (decide (i < min p.length dflt.length)) = true := by simp; omega
      rw [this]
      cases dflt.get i <;> cases p.get i <;> rfl
    · rw [Bits.get_ge dflt i (by omega)]; simp

/-- the full invariant, relative to the abstract stack -/
structure SLInv (P N : Bits) (st : List (Subgroup × Bits × Bits)) (l : SubgroupList) : Prop where
  dist : l.dist = (P.ones, P.length)
  lenN : N.length = P.length
  subs : l.subs = st.map (·.1)
  oP : l.origPos = st.map (·.2.1)
  oN : l.origNeg = st.map (·.2.2)
  cP : ClassInv P l.defPos l.pos l.origPos
  cN : ClassInv N l.defNeg l.neg l.origNeg

theorem slInv_add {P N : Bits} {st : List (Subgroup × Bits × Bits)} {l : SubgroupList} (h : SLInv P N st l)
    (s : Subgroup) (p n : Bits) (hp : p.length = P.length) (hn : n.length = P.length) :
    ∃ l', l.add s p n = .ok l' ∧ SLInv P N (st ++ [(s, p, n)]) l' := by
  unfold SubgroupList.add
  rw [if_neg (by simp [h.dist, hp]), if_neg (by simp [h.dist, hn])]
  refine ⟨_, rfl, ?_⟩
  exact ⟨h.dist, h.lenN, by simp [h.subs], by simp [h.oP], by simp [h.oN], h.cP.add p hp,
    h.cN.add n (by rw [hn, h.lenN])⟩

theorem sl_add_delete {P N : Bits} {st : List (Subgroup × Bits × Bits)} {l l' : SubgroupList} (h : SLInv P N st l)
    (s : Subgroup) (p n : Bits) (ha : l.add s p n = .ok l') : l'.deleteLast = l := by
  unfold SubgroupList.add at ha
  split at ha
  · cases ha
  split at ha
  · cases ha
  rename_i h1' h2'
  have h1 : l.dist.2 = p.length := not_not.1 h1'
  have h2 : l.dist.2 = n.length := not_not.1 h2'
  clear h1' h2'
  rw [h.dist] at h1 h2
  cases ha
  unfold SubgroupList.deleteLast
  simp only [List.length_append, List.length_cons, List.length_nil, Nat.zero_add, gt_iff_lt]
  rw [if_pos (by omega)]
  obtain ⟨dp, dn, di, su, po, ne, op, on⟩ := l
  have e1 := class_undo P dp p h.cP.lenD h1.symm
  have e2 := class_undo N dn n h.cN.lenD (by rw [h.lenN]; exact h2.symm)
  simp [e1, e2]

/-- the states built by additions only -/
inductive Built (l0 : SubgroupList) : List (Subgroup × Bits × Bits) → SubgroupList → Prop
  | nil : Built l0 [] l0
  | add {st l l'} (s : Subgroup) (p n : Bits) : Built l0 st l → l.add s p n = .ok l' → Built l0 (st ++ [(s, p, n)]) l'

theorem built_inv {P N : Bits} {l0 : SubgroupList} (h0 : SubgroupList.new P N P.length = .ok l0)
    {st : List (Subgroup × Bits × Bits)} {l : SubgroupList} (h : Built l0 st l) : SLInv P N st l := by
  unfold SubgroupList.new at h0
  rw [if_neg (by simp)] at h0
  split at h0
  · cases h0
  rename_i hN
  have hN : P.length = N.length := not_not.1 hN
  cases h0
  induction h with
  | nil => exact ⟨rfl, hN.symm, rfl, rfl, rfl, ClassInv.nil P, ClassInv.nil N⟩
  | add s p n hb ha ih =>
    have hlen : p.length = P.length ∧ n.length = P.length := by
      unfold SubgroupList.add at ha
      split at ha
      · cases ha
      split at ha
      · cases ha
      rename_i h1 h2
      rw [ih.dist] at h1 h2
      exact ⟨(not_not.1 h1).symm, (not_not.1 h2).symm⟩
    obtain ⟨l'', h1, h2⟩ := slInv_add ih s p n hlen.1 hlen.2
    rw [h1] at ha
    cases ha
    exact h2

theorem run_built {P N : Bits} {l0 : SubgroupList} (h0 : SubgroupList.new P N P.length = .ok l0) (ops : List SLOp) :
    Built l0 (slStack P.length ops) (l0.run ops) := by
  induction ops using List.reverseRecOn with
  | nil => exact .nil
  | append_singleton ops op ih =>
    have e : l0.run (ops ++ [op]) = (l0.run ops).step op := by simp [SubgroupList.run]
    have hinv := built_inv h0 ih
    rw [e]
    cases op with
    | add s p n =>
      have e2 : slStack P.length (ops ++ [.add s p n]) =
          if p.length = P.length ∧ n.length = P.length then slStack P.length ops ++ [(s, p, n)]
          else slStack P.length ops := by simp [slStack]
      rw [e2]
      split
      · rename_i hl
        obtain ⟨l', h1, -⟩ := slInv_add hinv s p n hl.1 hl.2
        have : (l0.run ops).step (.add s p n) = l' := by simp only [SubgroupList.step, h1]
        rw [this]
        exact .add s p n ih h1
      · rename_i hl
        have : (l0.run ops).step (.add s p n) = l0.run ops := by
          have : (l0.run ops).add s p n = .error .valueError := by
            unfold SubgroupList.add
            rw [hinv.dist]
            by_cases hp : p.length = P.length
            · rw [if_neg (by simp [hp]), if_pos]
              exact fun hc => hl ⟨hp, hc.symm⟩
            · rw [if_pos]
              exact fun hc => hp hc.symm
          simp only [SubgroupList.step, this]
        rw [this]
        exact ih
    | deleteLast =>
      have e2 : slStack P.length (ops ++ [.deleteLast]) = (slStack P.length ops).dropLast := by simp [slStack]
      rw [e2]
      show Built l0 _ (l0.run ops).deleteLast
      generalize l0.run ops = l at ih hinv
      generalize slStack P.length ops = st at ih hinv
      cases ih with
      | nil =>
        have : l0.deleteLast = l0 := by
          unfold SubgroupList.deleteLast
          rw [if_neg]
          rw [hinv.subs]
          simp
        rw [this]
        exact .nil
      | add s p n hb ha =>
        rw [sl_add_delete (built_inv h0 hb) s p n ha, List.dropLast_concat]
        exact hb

/-- C21, C22 as a refinement: after any history on a fresh list, the subgroups and their individual bitarrays are those of
the abstract stack, every positional bitarray holds exactly the rows of its class that are in the individual one and in
no earlier one, and the default rule the rows of the class that are in none. -/
theorem C21_stack (P N : Bits) (ops : List SLOp) (l0 : SubgroupList) (h0 : SubgroupList.new P N P.length = .ok l0) :
    let l := l0.run ops
    let st := slStack P.length ops
    l.subs = st.map (·.1) ∧ l.origPos = st.map (·.2.1) ∧ l.origNeg = st.map (·.2.2) ∧
    l.pos.length = st.length ∧ l.neg.length = st.length ∧ l.dist = (P.ones, P.length) ∧
    l.defPos.length = P.length ∧ l.defNeg.length = P.length ∧
    (∀ b ∈ l.pos ++ l.neg ++ l.origPos ++ l.origNeg, b.length = P.length) ∧
    (∀ k i, k < st.length → ((l.pos.getD k []).get i = true ↔ Positional P (st.map (·.2.1)) k i)) ∧
    (∀ k i, k < st.length → ((l.neg.getD k []).get i = true ↔ Positional N (st.map (·.2.2)) k i)) ∧
    (∀ i, (l.defPos.get i = true ↔ Default P (st.map (·.2.1)) i)) ∧
    (∀ i, (l.defNeg.get i = true ↔ Default N (st.map (·.2.2)) i)) := by
  intro l st
  have h := built_inv h0 (run_built h0 ops)
  obtain ⟨h1, h2, h3, h4, h5, h6, h7⟩ := h
  have hl1 := h6.lenP
  have hl2 := h7.lenP
  rw [h4, List.length_map] at hl1
  rw [h5, List.length_map] at hl2
  refine ⟨h3, h4, h5, hl1, hl2, h1, h6.lenD, by rw [← h2]; exact h7.lenD, ?_, ?_, ?_, ?_, ?_⟩
  · intro b hb
    simp only [List.mem_append] at hb
    rcases hb with ((hb | hb) | hb) | hb
    · exact h6.lenQ b hb
    · rw [← h2]; exact h7.lenQ b hb
    · exact h6.lenO b hb
    · rw [← h2]; exact h7.lenO b hb
  · intro k i hk
    rw [← h4]
    exact h6.hpos k i (hl1 ▸ hk)
  · intro k i hk
    rw [← h5]
    exact h7.hpos k i (hl2 ▸ hk)
  · intro i
    rw [← h4]
    exact h6.hdef i
  · intro i
    rw [← h5]
    exact h7.hdef i

/-- rows of a class: exactly one owner -/
theorem class_partition {D dflt : Bits} {pos orig : List Bits} (h : ClassInv D dflt pos orig) (i : Nat) :
    (∃! o : Option Nat, match o with
      | none => dflt.get i = true
      | some k => k < pos.length ∧ (pos.getD k []).get i = true) ↔ D.get i = true := by
  have hP := h.lenP
  constructor
  · rintro ⟨o, ho, -⟩
    cases o with
    | none => exact ((h.hdef i).1 ho).1
    | some k => exact ((h.hpos k i ho.1).1 ho.2).1
  · intro hD
    by_cases hn : ∃ k, k < orig.length ∧ (orig.getD k []).get i = true
    · have hmin := Nat.find_spec hn
      have hlt : ∀ j, j < Nat.find hn → (orig.getD j []).get i = false := by
        intro j hj
        have := Nat.find_min hn hj
        by_contra hc
        exact this ⟨by omega, by simpa using hc⟩
      refine ⟨some (Nat.find hn), ⟨by omega, (h.hpos _ i (by omega)).2 ⟨hD, hmin.2, hlt⟩⟩, ?_⟩
      intro o ho
      cases o with
      | none =>
        have := ((h.hdef i).1 ho).2 _ hmin.1
        rw [hmin.2] at this
        cases this
      | some k =>
        have hk := (h.hpos k i ho.1).1 ho.2
        rcases Nat.lt_trichotomy k (Nat.find hn) with hc | hc | hc
        · have := hk.2.1
          rw [hlt k hc] at this
          cases this
        · rw [hc]
        · have := hk.2.2 _ hc
          rw [hmin.2] at this
          cases this
    · refine ⟨none, (h.hdef i).2 ⟨hD, fun j hj => ?_⟩, ?_⟩
      · by_contra hc
        exact hn ⟨j, hj, by simpa using hc⟩
      · intro o ho
        cases o with
        | none => rfl
        | some k =>
          have hk := (h.hpos k i ho.1).1 ho.2
          exact absurd ⟨k, by omega, hk.2.1⟩ hn

/-- C21: after any history, a row of the class has exactly one owner among the subgroups of the list (`some k`) and the
default rule (`none`), and a row outside the class has none. -/
theorem C21_partition (P N : Bits) (ops : List SLOp) (l0 : SubgroupList) (h0 : SubgroupList.new P N P.length = .ok l0)
    (i : Nat) :
    let l := l0.run ops
    ((∃! o : Option Nat, match o with
      | none => l.defPos.get i = true
      | some k => k < l.len ∧ (l.pos.getD k []).get i = true) ↔ P.get i = true) ∧
    ((∃! o : Option Nat, match o with
      | none => l.defNeg.get i = true
      | some k => k < l.len ∧ (l.neg.getD k []).get i = true) ↔ N.get i = true) ∧
    (P.get i = false → l.defPos.get i = false ∧ ∀ k, k < l.len → (l.pos.getD k []).get i = false) ∧
    (N.get i = false → l.defNeg.get i = false ∧ ∀ k, k < l.len → (l.neg.getD k []).get i = false) := by
  intro l
  have h := built_inv h0 (run_built h0 ops)
  have e1 : l.len = l.pos.length := by
    rw [h.cP.lenP, h.oP]
    show l.subs.length = _
    rw [h.subs, List.length_map, List.length_map]
  have e2 : l.len = l.neg.length := by
    rw [h.cN.lenP, h.oN]
    show l.subs.length = _
    rw [h.subs, List.length_map, List.length_map]
  refine ⟨by rw [e1]; exact class_partition h.cP i, by rw [e2]; exact class_partition h.cN i, ?_, ?_⟩
  · intro hf
    refine ⟨?_, fun k hk => ?_⟩
    · by_contra hc
      have := ((h.cP.hdef i).1 (by simpa using hc)).1
      rw [hf] at this; cases this
    · by_contra hc
      have := ((h.cP.hpos k i (e1 ▸ hk)).1 (by simpa using hc)).1
      rw [hf] at this; cases this
  · intro hf
    refine ⟨?_, fun k hk => ?_⟩
    · by_contra hc
      have := ((h.cN.hdef i).1 (by simpa using hc)).1
      rw [hf] at this; cases this
    · by_contra hc
      have := ((h.cN.hpos k i (e2 ▸ hk)).1 (by simpa using hc)).1
      rw [hf] at this; cases this

/-- C21: after any history the rows of each class are shared out: the sizes of the positional bitarrays and of the default
rule add up to the number of rows of the class. -/
theorem C21_counts (P N : Bits) (ops : List SLOp) (l0 : SubgroupList) (h0 : SubgroupList.new P N P.length = .ok l0) :
    let l := l0.run ops
    (l.pos.map Bits.ones).sum + l.defPos.ones = P.ones ∧ (l.neg.map Bits.ones).sum + l.defNeg.ones = N.ones := by
  intro l
  have hb := run_built h0 ops
  show ((l0.run ops).pos.map Bits.ones).sum + (l0.run ops).defPos.ones = P.ones ∧
    ((l0.run ops).neg.map Bits.ones).sum + (l0.run ops).defNeg.ones = N.ones
  generalize l0.run ops = x at hb
  generalize slStack P.length ops = st at hb
  induction hb with
  | nil =>
    unfold SubgroupList.new at h0
    rw [if_neg (by simp)] at h0
    split at h0
    · cases h0
    cases h0
    simp
  | add s p n hb' ha ih =>
    have hinv := built_inv h0 hb'
    unfold SubgroupList.add at ha
    split at ha
    · cases ha
    split at ha
    · cases ha
    rename_i h1 h2
    rw [hinv.dist] at h1 h2
    have h1 := not_not.1 h1
    have h2 := not_not.1 h2
    cases ha
    have e1 := ones_split _ p (hinv.cP.lenD.trans h1)
    have e2 := ones_split _ n ((hinv.cN.lenD.trans hinv.lenN).trans h2)
    simp only [List.map_append, List.map_cons, List.map_nil, List.sum_append, List.sum_cons, List.sum_nil]
    omega

/-- C22: adding a subgroup and deleting the last one restores the list exactly, from any state a history can reach. -/
theorem C22_undo (P N : Bits) (ops : List SLOp) (l0 l' : SubgroupList) (h0 : SubgroupList.new P N P.length = .ok l0)
    (s : Subgroup) (p n : Bits) (ha : (l0.run ops).add s p n = .ok l') : l'.deleteLast = l0.run ops :=
  sl_add_delete (built_inv h0 (run_built h0 ops)) s p n ha

/-- what `list[i]` means: positions from the start, or from the end for negative `i` -/
theorem pyGet_get {α : Type} (l : List α) (k : Nat) (x : α) (h : l[k]? = some x) :
    SubgroupList.pyGet l (k : Int) = .ok x ∧ SubgroupList.pyGet l ((k : Int) - (l.length : Int)) = .ok x := by
  obtain ⟨hk, hx⟩ := List.getElem?_eq_some_iff.1 h
  constructor
  · unfold SubgroupList.pyGet pyIndex
    rw [if_pos (by omega), Int.toNat_natCast, if_pos hk]
    simp only [h]
  · unfold SubgroupList.pyGet pyIndex
    rw [if_neg (by omega), if_pos (by omega), show ((k : Int) - (l.length : Int) + (l.length : Int)).toNat = k by omega]
    simp only [h]

theorem pyGet_out {α : Type} (l : List α) (i : Int) (h : (l.length : Int) ≤ i ∨ i < -(l.length : Int)) : SubgroupList.pyGet l i = .error .indexError := by
  unfold SubgroupList.pyGet pyIndex
  rcases h with h | h
  · rw [if_pos (by omega), if_neg (by omega)]
  · rw [if_neg (by omega), if_neg (by omega)]

/-- C21: the getters, after any history: positions count from the first subgroup, or from the last for negative ones; other positions raise `IndexError`. -/
theorem C21_getters (P N : Bits) (ops : List SLOp) (l0 : SubgroupList) (h0 : SubgroupList.new P N P.length = .ok l0) (i : Int) :
    let l := l0.run ops
    let st := slStack P.length ops
    (∀ k : Nat, k < st.length → (i = k ∨ i = (k : Int) - (st.length : Int)) →
      ∃ e : Subgroup × Bits × Bits, st[k]? = some e ∧ l.getSubgroup i = .ok e.1 ∧ l.getOrigPos i = .ok e.2.1 ∧ l.getOrigNeg i = .ok e.2.2 ∧
      (∃ b, l.getPos i = .ok b ∧ ∀ j, (b.get j = true ↔ Positional P (st.map (·.2.1)) k j)) ∧
      (∃ b, l.getNeg i = .ok b ∧ ∀ j, (b.get j = true ↔ Positional N (st.map (·.2.2)) k j))) ∧
    ((st.length : Int) ≤ i ∨ i < -(st.length : Int) →
      l.getSubgroup i = .error .indexError ∧ l.getPos i = .error .indexError ∧ l.getNeg i = .error .indexError ∧ l.getOrigPos i = .error .indexError ∧ l.getOrigNeg i = .error .indexError) ∧
    l.len = st.length ∧ (l.isEmpty = true ↔ st = []) := by
  intro l st
  obtain ⟨e1, e2, e3, e4, e5, -, -, -, -, h1, h2, -, -⟩ := C21_stack P N ops l0 h0
  have e1 : l.subs = st.map (·.1) := e1
  have e2 : l.origPos = st.map (·.2.1) := e2
  have e3 : l.origNeg = st.map (·.2.2) := e3
  have e4 : l.pos.length = st.length := e4
  have e5 : l.neg.length = st.length := e5
  have get : ∀ {α : Type} (xs : List α) (k : Nat) (x : α), xs.length = st.length → xs[k]? = some x → (i = k ∨ i = (k : Int) - (st.length : Int)) → SubgroupList.pyGet xs i = .ok x := by
    intro α xs k x hlen hx hi
    obtain ⟨g1, g2⟩ := pyGet_get xs k x hx
    rcases hi with rfl | rfl
    · exact g1
    · rw [← hlen]; exact g2
  refine ⟨?_, ?_, ?_, ?_⟩
  · intro k hk hi
    refine ⟨st[k], List.getElem?_eq_getElem hk, ?_, ?_, ?_, ?_, ?_⟩
    · exact get l.subs k _ (by rw [e1, List.length_map]) (by rw [e1, List.getElem?_map, List.getElem?_eq_getElem hk]; rfl) hi
    · exact get l.origPos k _ (by rw [e2, List.length_map]) (by rw [e2, List.getElem?_map, List.getElem?_eq_getElem hk]; rfl) hi
    · exact get l.origNeg k _ (by rw [e3, List.length_map]) (by rw [e3, List.getElem?_map, List.getElem?_eq_getElem hk]; rfl) hi
    · have hk' : k < l.pos.length := by omega
      refine ⟨l.pos[k], get l.pos k _ e4 (List.getElem?_eq_getElem hk') hi, fun j => ?_⟩
      have := h1 k j hk
      rw [show ((l0.run ops).pos.getD k []) = l.pos[k] from by simp [l, List.getD, List.getElem?_eq_getElem hk']] at this
      exact this
    · have hk' : k < l.neg.length := by omega
      refine ⟨l.neg[k], get l.neg k _ e5 (List.getElem?_eq_getElem hk') hi, fun j => ?_⟩
      have := h2 k j hk
      rw [show ((l0.run ops).neg.getD k []) = l.neg[k] from by simp [l, List.getD, List.getElem?_eq_getElem hk']] at this
      exact this
  · intro hi
    refine ⟨pyGet_out _ _ ?_, pyGet_out _ _ ?_, pyGet_out _ _ ?_, pyGet_out _ _ ?_, pyGet_out _ _ ?_⟩
    · rw [e1, List.length_map]; exact hi
    · rw [e4]; exact hi
    · rw [e5]; exact hi
    · rw [e2, List.length_map]; exact hi
    · rw [e3, List.length_map]; exact hi
  · show l.subs.length = _
    rw [e1, List.length_map]
  · show (l.subs.length == 0) = true ↔ _
    rw [e1, List.length_map, beq_iff_eq, List.length_eq_zero_iff]

/-- C21: the numbers about the data never change; the target distribution of an empty data set is a division by zero. -/
theorem C21_dataset (P N : Bits) (ops : List SLOp) (l0 : SubgroupList) (h0 : SubgroupList.new P N P.length = .ok l0) :
    let l := l0.run ops
    l.numPositives = P.ones ∧ l.numNegatives = (P.length : Int) - P.ones ∧ l.numInstances = P.length ∧
    (P ≠ [] → l.targetDistribution = .ok ((P.ones : Rat) / (P.length : Rat))) ∧ (P = [] → l.targetDistribution = .error .zeroDivisionError) := by
  intro l
  obtain ⟨-, -, -, -, -, hd, -⟩ := C21_stack P N ops l0 h0
  have hd : l.dist = (P.ones, P.length) := hd
  unfold SubgroupList.numPositives SubgroupList.numNegatives SubgroupList.numInstances SubgroupList.targetDistribution
  rw [hd]
  refine ⟨rfl, rfl, rfl, ?_, ?_⟩
  · intro hP
    rw [if_neg (by simpa using hP)]
  · intro hP
    rw [if_pos (by simp [hP])]

/-- C22: more generally the state after a history is determined by the abstract stack alone: two histories that leave the
same stack leave the same object. -/
theorem C22_determined (P N : Bits) (ops ops' : List SLOp) (l0 : SubgroupList)
    (h0 : SubgroupList.new P N P.length = .ok l0) (h : slStack P.length ops = slStack P.length ops') :
    l0.run ops = l0.run ops' := by
  have a := run_built h0 ops
  have b := run_built h0 ops'
  rw [← h] at b
  generalize slStack P.length ops = st at a b
  generalize l0.run ops = x at a
  generalize l0.run ops' = y at b
  induction a generalizing y with
  | nil =>
    generalize hs : ([] : List (Subgroup × Bits × Bits)) = st at b
    cases b with
    | nil => rfl
    | add => simp at hs
  | add s p n hb ha ih =>
    rename_i st1 l1 l1'
    generalize hs : st1 ++ [(s, p, n)] = st at b
    cases b with
    | nil => simp at hs
    | add s' p' n' hb' ha' =>
      obtain ⟨e1, e2⟩ := List.append_inj' hs rfl
      cases e1
      cases e2
      rw [← ih _ hb', ha] at ha'
      cases ha'
      rfl

/-- C22: additions of well-sized bitarrays never fail; ill-sized ones are refused. -/
theorem C22_add_total (P N : Bits) (ops : List SLOp) (l0 : SubgroupList) (h0 : SubgroupList.new P N P.length = .ok l0)
    (s : Subgroup) (p n : Bits) :
    (∃ l', (l0.run ops).add s p n = .ok l') ↔ p.length = P.length ∧ n.length = P.length := by
  have h := built_inv h0 (run_built h0 ops)
  constructor
  · rintro ⟨l', ha⟩
    unfold SubgroupList.add at ha
    split at ha
    · cases ha
    split at ha
    · cases ha
    rename_i h1 h2
    rw [h.dist] at h1 h2
    exact ⟨(not_not.1 h1).symm, (not_not.1 h2).symm⟩
  · rintro ⟨h1, h2⟩
    obtain ⟨l', h3, -⟩ := slInv_add h s p n h1 h2
    exact ⟨l', h3⟩

example : ∃ (P N : Bits) (l0 : SubgroupList) (ops : List SLOp), SubgroupList.new P N P.length = .ok l0 ∧
    (slStack P.length ops).length = 2 ∧ (l0.run ops).pos = [[true, true, false], [false, false, true]] ∧
    (l0.run ops).origPos = [[true, true, false], [false, true, true]] ∧ (l0.run ops).getPos (-1) = .ok [false, false, true] :=
  ⟨[true, true, true], [false, false, false], _,
    [.add ⟨⟨[]⟩, ⟨[], .equal, .int 0⟩⟩ [true, true, false] [false, false, false], .deleteLast,
     .add ⟨⟨[]⟩, ⟨[], .equal, .int 0⟩⟩ [true, true, false] [false, false, false],
     .add ⟨⟨[]⟩, ⟨[], .equal, .int 0⟩⟩ [false, true, true] [false, false, false]],
    rfl, rfl, rfl, rfl, rfl⟩

end Verif

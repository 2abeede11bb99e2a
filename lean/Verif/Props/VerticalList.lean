import Verif.Model.VerticalList
import Verif.Lemmas.Bits
/-! C20: vertical lists. -/
namespace Verif
namespace Spec
variable {σ : Type}

/-- the row numbers given to each constructor call are distinct and in range -/
def JExpr.Valid : JExpr σ → Prop
  | .new _ t f n _ => t.Nodup ∧ f.Nodup ∧ (∀ i ∈ t, i < n) ∧ (∀ i ∈ f, i < n)
  | .join a b => JExpr.Valid a ∧ JExpr.Valid b

/-- row `i` is a positive (negative) instance of every vertical list of the program -/
def JExpr.Pos : JExpr σ → Nat → Prop
  | .new _ t _ _ _, i => i ∈ t
  | .join a b, i => JExpr.Pos a i ∧ JExpr.Pos b i
def JExpr.Neg : JExpr σ → Nat → Prop
  | .new _ _ f _ _, i => i ∈ f
  | .join a b, i => JExpr.Neg a i ∧ JExpr.Neg b i

/-- the selectors: those of the left operand and the last of the right one -/
def JExpr.names : JExpr σ → List σ
  | .new s _ _ _ _ => s
  | .join a b => JExpr.names a ++ (JExpr.names b).getLast?.toList

/-- the two objects show the same to a client, and their sequences stand for the same rows -/
structure SameList (x : VList σ (List Nat)) (y : VList σ Bits) : Prop where
  sels : x.sels = y.sels
  tp : x.tp = y.tp
  fp : x.fp = y.fp
  rows : x.rows = y.rows
  quality : x.quality = y.quality
  tpLen : y.tpSeq.length = y.rows
  fpLen : y.fpSeq.length = y.rows
  tpSeq : ∀ i, i ∈ x.tpSeq ↔ y.tpSeq.get i = true
  fpSeq : ∀ i, i ∈ x.fpSeq ↔ y.fpSeq.get i = true

/-- same outcome: same exception, both `None`, or equivalent vertical lists -/
def SameOutcome : Except PyErr (Option (VList σ (List Nat))) → Except PyErr (Option (VList σ Bits)) → Prop
  | .error e, .error e' => e = e'
  | .ok none, .ok none => True
  | .ok (some x), .ok (some y) => SameList x y
  | _, _ => False
end Spec
open Spec
variable {σ : Type}

theorem setBits_spec (b : Bits) (l : List Nat) (h : ∀ i ∈ l, i < b.length) :
    ∃ c, VListBits.setBits b l = .ok c ∧ c.length = b.length ∧ ∀ i, c.get i = true ↔ b.get i = true ∨ i ∈ l := by
  induction l generalizing b with
  | nil => exact ⟨b, rfl, rfl, by simp⟩
  | cons x l ih =>
    have hx := h x (by simp)
    obtain ⟨c, h1, h2, h3⟩ := ih (b.set x true) (fun i hi => by rw [List.length_set]; exact h i (by simp [hi]))
    refine ⟨c, by simp [VListBits.setBits, hx, h1], by rw [h2, List.length_set], fun i => ?_⟩
    rw [h3]
    have : Bits.get (b.set x true) i = true ↔ Bits.get b i = true ∨ i = x := by
      unfold Bits.get
      simp only [List.getD_eq_getElem?_getD, List.getElem?_set]
      by_cases hxi : x = i
      · subst hxi; simp [hx]
      · have hxi' : ¬ i = x := fun h => hxi h.symm
        simp [hxi, hxi']
    rw [this, List.mem_cons, or_assoc]

theorem inter_mem (a b : List Nat) (i : Nat) : i ∈ VListSet.inter a b ↔ i ∈ a ∧ i ∈ b := by
  simp [VListSet.inter]

/-- everything we need about evaluation with sets -/
theorem set_spec (quality : Params → Except PyErr Rat) (d : Params) (z : Bool) (e : JExpr σ) (hv : JExpr.Valid e)
    (x : VList σ (List Nat)) (hx : e.eval VListSet.new (VListSet.join quality d z) = .ok (some x)) :
    x.tpSeq.Nodup ∧ x.fpSeq.Nodup ∧ x.tp = x.tpSeq.length ∧ x.fp = x.fpSeq.length ∧
    (∀ i, i ∈ x.tpSeq ↔ JExpr.Pos e i) ∧ (∀ i, i ∈ x.fpSeq ↔ JExpr.Neg e i) ∧ x.sels = JExpr.names e ∧
    (∀ a b, e = .join a b → quality (vlParams d x.tp x.fp) = .ok x.quality) := by
  induction e generalizing x with
  | new s t f n q =>
    simp only [JExpr.eval, VListSet.new] at hx
    cases hx
    obtain ⟨h1, h2, h3, h4⟩ := hv
    simp [VListSet.toSet, h1, h2, List.Nodup.dedup h1, List.Nodup.dedup h2, JExpr.Pos, JExpr.Neg, JExpr.names]
  | join a b iha ihb =>
    simp only [JExpr.eval] at hx
    split at hx
    · cases hx
    · cases hx
    split at hx
    · cases hx
    · cases hx
    rename_i _ y hy _ w hw
    obtain ⟨a1, a2, a3, a4, a5, a6, a7, -⟩ := iha hv.1 y hy
    obtain ⟨b1, b2, b3, b4, b5, b6, b7, -⟩ := ihb hv.2 w hw
    unfold VListSet.join at hx
    split at hx
    · cases hx
    dsimp only at hx
    split at hx
    · split at hx
      · cases hx
      split at hx
      · cases hx
      rename_i s hs _ q hq
      cases hx
      refine ⟨List.Nodup.filter _ a1, List.Nodup.filter _ a2, rfl, rfl, fun i => ?_, fun i => ?_, ?_, fun _ _ _ => hq⟩
      · simp only [inter_mem, a5, b5, JExpr.Pos]
      · simp only [inter_mem, a6, b6, JExpr.Neg]
      · simp only [JExpr.names, a7, ← b7, hs, Option.toList]
    · cases hx

/-- C20: for every program of constructor calls and joins on valid rows, the two implementations give the same exceptions,
the same `None`s, and vertical lists with the same selectors, tp, fp, quality and rows. -/
theorem C20_agree (quality : Params → Except PyErr Rat) (d : Params) (z : Bool) (e : JExpr σ) (hv : JExpr.Valid e) :
    SameOutcome (e.eval VListSet.new (VListSet.join quality d z)) (e.eval VListBits.new (VListBits.join quality d z)) := by
  induction e with
  | new s t f n q =>
    obtain ⟨h1, h2, h3, h4⟩ := hv
    obtain ⟨c, c1, c2, c3⟩ := setBits_spec (List.replicate n false) t (by simpa using h3)
    obtain ⟨c', c1', c2', c3'⟩ := setBits_spec (List.replicate n false) f (by simpa using h4)
    have z0 : ∀ i, Bits.get (List.replicate n false) i = false := by
      intro i
      simp only [Bits.get, List.getD_eq_getElem?_getD, List.getElem?_replicate]
      split <;> rfl
    simp only [JExpr.eval, VListSet.new, VListBits.new, c1, c1', SameOutcome]
    refine ⟨rfl, rfl, rfl, rfl, rfl, by simpa using c2, by simpa using c2', fun i => ?_, fun i => ?_⟩
    · rw [c3, z0]; simp [VListSet.toSet]
    · rw [c3', z0]; simp [VListSet.toSet]
  | join a b iha ihb =>
    have ha := iha hv.1
    have hb := ihb hv.2
    have sa := set_spec quality d z a hv.1
    have sb := set_spec quality d z b hv.2
    simp only [JExpr.eval]
    generalize a.eval VListSet.new (VListSet.join quality d z) = ra at ha sa
    generalize a.eval VListBits.new (VListBits.join quality d z) = ra' at ha
    generalize b.eval VListSet.new (VListSet.join quality d z) = rb at hb sb
    generalize b.eval VListBits.new (VListBits.join quality d z) = rb' at hb
    rcases ra with _ | _ | x <;> rcases ra' with _ | _ | y <;> simp only [SameOutcome] at ha ⊢
    · exact ha
    rcases rb with _ | _ | u <;> rcases rb' with _ | _ | v <;> simp only [SameOutcome] at hb ⊢
    · exact hb
    obtain ⟨a1, a2, -⟩ := sa x rfl
    have ht : (y.tpSeq.and v.tpSeq).ones = (VListSet.inter x.tpSeq u.tpSeq).length :=
      Bits.ones_eq_length _ _ (List.Nodup.filter _ a1)
        (fun i => by rw [inter_mem, Bits.get_and, Bool.and_eq_true, ha.tpSeq, hb.tpSeq])
    have hf : (y.fpSeq.and v.fpSeq).ones = (VListSet.inter x.fpSeq u.fpSeq).length :=
      Bits.ones_eq_length _ _ (List.Nodup.filter _ a2)
        (fun i => by rw [inter_mem, Bits.get_and, Bool.and_eq_true, ha.fpSeq, hb.fpSeq])
    unfold VListSet.join VListBits.join
    dsimp only
    rw [ht, hf, ← hb.sels, ← ha.rows, ← hb.rows, ← ha.sels]
    by_cases hrows : x.rows = u.rows
    swap
    · rw [if_pos hrows, if_pos hrows]
    rw [if_neg (not_not.2 hrows), if_neg (not_not.2 hrows)]
    by_cases hcond : (!z || decide ((VListSet.inter x.tpSeq u.tpSeq).length + (VListSet.inter x.fpSeq u.fpSeq).length > 0)) = true
    · rw [if_pos hcond, if_pos hcond]
      cases hlast : u.sels.getLast? with
      | none => trivial
      | some s =>
      cases hq : quality (vlParams d (VListSet.inter x.tpSeq u.tpSeq).length (VListSet.inter x.fpSeq u.fpSeq).length) with
      | error e => trivial
      | ok q =>
      refine ⟨rfl, rfl, rfl, rfl, rfl, ?_, ?_, fun i => ?_, fun i => ?_⟩
      · simp only [Bits.len_and, ha.tpLen, hb.tpLen, ← ha.rows, ← hb.rows, hrows, min_self]
      · simp only [Bits.len_and, ha.fpLen, hb.fpLen, ← ha.rows, ← hb.rows, hrows, min_self]
      · rw [inter_mem, Bits.get_and, Bool.and_eq_true, ha.tpSeq, hb.tpSeq]
      · rw [inter_mem, Bits.get_and, Bool.and_eq_true, ha.fpSeq, hb.fpSeq]
    · rw [if_neg hcond, if_neg hcond]
      trivial

/-- C20: exactness, for sets. The sequences of the result are the rows common to all joined lists, the counters are their
sizes, the selectors are those of the left operand and the last of the right one, and the stored quality is the measure on
the stored counters. -/
theorem C20_exact_sets (quality : Params → Except PyErr Rat) (d : Params) (z : Bool) (e : JExpr σ) (hv : JExpr.Valid e)
    (x : VList σ (List Nat)) (hx : e.eval VListSet.new (VListSet.join quality d z) = .ok (some x)) :
    x.tpSeq.Nodup ∧ x.fpSeq.Nodup ∧ x.tp = x.tpSeq.length ∧ x.fp = x.fpSeq.length ∧
    (∀ i, i ∈ x.tpSeq ↔ JExpr.Pos e i) ∧ (∀ i, i ∈ x.fpSeq ↔ JExpr.Neg e i) ∧ x.sels = JExpr.names e ∧
    (∀ a b, e = .join a b → quality (vlParams d x.tp x.fp) = .ok x.quality) := set_spec quality d z e hv x hx

/-- C20: exactness, for bitsets. -/
theorem C20_exact_bits (quality : Params → Except PyErr Rat) (d : Params) (z : Bool) (e : JExpr σ) (hv : JExpr.Valid e)
    (x : VList σ Bits) (hx : e.eval VListBits.new (VListBits.join quality d z) = .ok (some x)) :
    x.tpSeq.length = x.rows ∧ x.fpSeq.length = x.rows ∧ x.tp = x.tpSeq.ones ∧ x.fp = x.fpSeq.ones ∧
    (∀ i, x.tpSeq.get i = true ↔ JExpr.Pos e i) ∧ (∀ i, x.fpSeq.get i = true ↔ JExpr.Neg e i) ∧ x.sels = JExpr.names e ∧
    (∀ a b, e = .join a b → quality (vlParams d x.tp x.fp) = .ok x.quality) := by
  have h := C20_agree quality d z e hv
  have hs := set_spec quality d z e hv
  rw [hx] at h
  generalize e.eval VListSet.new (VListSet.join quality d z) = r at h hs
  rcases r with _ | _ | y <;> simp only [SameOutcome] at h
  obtain ⟨a1, a2, a3, a4, a5, a6, a7, a8⟩ := hs y rfl
  refine ⟨h.tpLen, h.fpLen, ?_, ?_, fun i => ?_, fun i => ?_, ?_, ?_⟩
  · rw [← h.tp, a3, Bits.ones_eq_length _ _ a1 h.tpSeq]
  · rw [← h.fp, a4, Bits.ones_eq_length _ _ a2 h.fpSeq]
  · rw [← h.tpSeq, a5]
  · rw [← h.fpSeq, a6]
  · rw [← h.sels, a7]
  · rw [← h.tp, ← h.fp, ← h.quality]; exact a8

/-- C20: with `return_None_if_n_is_0`, a join of two results is `None` exactly when no row is common; without it, never. -/
theorem C20_none (quality : Params → Except PyErr Rat) (d : Params) (z : Bool) (a b : JExpr σ) (hv : JExpr.Valid (.join a b))
    (x y : VList σ (List Nat)) (hx : a.eval VListSet.new (VListSet.join quality d z) = .ok (some x))
    (hy : b.eval VListSet.new (VListSet.join quality d z) = .ok (some y)) (hr : x.rows = y.rows) :
    (JExpr.join a b).eval VListSet.new (VListSet.join quality d z) = .ok none ↔
      z = true ∧ ∀ i, ¬ JExpr.Pos (.join a b) i ∧ ¬ JExpr.Neg (.join a b) i := by
  obtain ⟨-, -, -, -, a5, a6, -⟩ := set_spec quality d z a hv.1 x hx
  obtain ⟨-, -, -, -, b5, b6, -⟩ := set_spec quality d z b hv.2 y hy
  simp only [JExpr.eval, hx, hy]
  unfold VListSet.join
  rw [if_neg (by simp [hr])]
  dsimp only
  have e1 : (∀ i, ¬ JExpr.Pos (.join a b) i ∧ ¬ JExpr.Neg (.join a b) i) ↔
      (VListSet.inter x.tpSeq y.tpSeq).length + (VListSet.inter x.fpSeq y.fpSeq).length = 0 := by
    rw [Nat.add_eq_zero_iff, List.length_eq_zero_iff, List.length_eq_zero_iff, List.eq_nil_iff_forall_not_mem,
      List.eq_nil_iff_forall_not_mem]
    simp only [inter_mem, a5, a6, b5, b6, JExpr.Pos, JExpr.Neg]
    exact forall_and
  rw [e1]
  split
  · rename_i hc
    constructor
    · intro h
      split at h
      · cases h
      split at h
      · cases h
      · cases h
    · rintro ⟨rfl, h0⟩
      rw [h0] at hc
      simp at hc
  · rename_i hc
    simp only [true_iff]
    simp at hc
    exact ⟨hc.1, by simp [hc.2.1, hc.2.2]⟩

example : ∃ (e : JExpr Nat) (x : VList Nat (List Nat)), JExpr.Valid e ∧
    e.eval VListSet.new (VListSet.join Quality.ppv [] true) = .ok (some x) ∧ x.tp = 2 ∧ x.fp = 1 ∧ x.sels = [1, 2] :=
  ⟨.join (.new [1] [0, 1, 2] [3] 5 0) (.new [2] [1, 2] [3, 4] 5 0), ⟨[1, 2], [1, 2], [3], 2, 1, 5, 2/3⟩, by simp [JExpr.Valid],
    by decide +kernel, rfl, rfl, rfl⟩

end Verif

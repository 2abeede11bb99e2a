import Verif.Spec.BSD
import Verif.Lemmas.Bits
import Verif.Lemmas.Sort
import Verif.Lemmas.Pattern
import Verif.Lemmas.SDMap
/-! BSD: the bits and one handled candidate. -/
namespace Verif
open Spec

/-! ## bits -/

theorem ones_and_le (a b : Bits) : (a.and b).ones ≤ a.ones := by
  unfold Bits.and Bits.ones
  induction a generalizing b with
  | nil => simp
  | cons x a ih => cases b with
    | nil => simp
    | cons y b => have := ih b; cases x <;> cases y <;> simp <;> omega

theorem bits_and_comm (a b : Bits) : a.and b = b.and a := by
  unfold Bits.and
  induction a generalizing b with
  | nil => simp
  | cons x a ih => cases b with
    | nil => simp
    | cons y b => simp only [List.zipWith_cons_cons, ih b, Bool.and_comm]

theorem ones_and_eq {a b : Bits} (h : a.length = b.length) : (a.and b).ones = a.ones ↔ BitsIn a b := by
  unfold Bits.and Bits.ones BitsIn
  induction a generalizing b with
  | nil => simp [Bits.get]
  | cons x a ih => cases b with
    | nil => simp at h
    | cons y b =>
      have ih' := ih (b := b) (by simpa using h)
      have hle := ones_and_le a b
      unfold Bits.and Bits.ones at hle
      have split : (∀ i, Bits.get (x :: a) i = true → Bits.get (y :: b) i = true) ↔
          ((x = true → y = true) ∧ ∀ i, Bits.get a i = true → Bits.get b i = true) := by
        constructor
        · intro hh
          exact ⟨by simpa [Bits.get] using hh 0, fun i => by simpa [Bits.get] using hh (i + 1)⟩
        · rintro ⟨h0, h1⟩ i
          cases i with
          | zero => simpa [Bits.get] using h0
          | succ i => simpa [Bits.get] using h1 i
      rw [split, ← ih']
      cases x <;> cases y <;> simp <;> omega

theorem ones_and_lt {a b : Bits} (h : a.length = b.length) : (a.and b).ones < a.ones ↔ ¬ BitsIn a b := by
  rw [← ones_and_eq h]
  have := ones_and_le a b
  omega

theorem BitsIn.antisymm {a b : Bits} (hl : a.length = b.length) (h1 : BitsIn a b) (h2 : BitsIn b a) : a = b := by
  apply Bits.ext hl
  intro i
  cases ha : a.get i <;> cases hb : b.get i
  · rfl
  · rw [h2 i hb] at ha; cases ha
  · rw [h1 i ha] at hb; cases hb
  · rfl

namespace BSD

theorem logicalAnd_ok {a b c : Bits} (h : logicalAnd a b = .ok c) : a.length = b.length ∧ c = a.and b := by
  unfold logicalAnd at h
  split at h
  · cases h
  · rename_i hn; exact ⟨not_not.1 hn, (Except.ok.inj h).symm⟩

theorem logicalAnd_eq {a b : Bits} (h : a.length = b.length) : logicalAnd a b = .ok (a.and b) := by
  unfold logicalAnd; rw [if_neg (not_not.2 h)]

theorem lastBits_ok {P : Nat} {b cneg r : Bits} (hb : b.length = P + cneg.length) (h : logicalAnd cneg (lastBits b cneg.length) = .ok r) :
    lastBits b cneg.length = b.drop P := by
  have hl := (logicalAnd_ok h).1
  unfold lastBits at hl ⊢
  split
  · rename_i h0
    rw [if_pos h0] at hl
    have hb0 : b = [] := List.length_eq_zero_iff.1 (by omega)
    rw [hb0]; simp
  · rw [hb]; congr 1; omega

theorem lastBits_pos {P : Nat} {b cneg : Bits} (hb : b.length = P + cneg.length) (h : cneg.length ≠ 0) :
    lastBits b cneg.length = b.drop P := by
  unfold lastBits
  rw [if_neg h, hb]; congr 1; omega

/-- the loop of `BSD._checkRel` -/
theorem checkRelBSD_spec {P N : Nat} {c : BSDCand} (hc : GoodCand P N c) (k : List BSDEntry) (hk : ∀ t ∈ k, t.bits.length = P + N) :
    (∀ r, checkRelBSD c.pos c.neg k = .ok r →
      (r = .irrelevant ∧ ∃ t ∈ k, Dominated P c.entry t) ∨ (r = .relevant ∧ ∀ t ∈ k, ¬ Dominated P c.entry t)) ∧
    (N ≠ 0 → ∃ r, checkRelBSD c.pos c.neg k = .ok r) := by
  have ec1 : c.entry.bits.take P = c.pos := by rw [hc.bits, ← hc.pos]; simp
  have ec2 : c.entry.bits.drop P = c.neg := by rw [hc.bits, ← hc.pos]; simp
  induction k with
  | nil =>
    refine ⟨?_, fun _ => ⟨_, rfl⟩⟩
    intro r h; cases h; exact Or.inr ⟨rfl, by simp⟩
  | cons t ts ih =>
    obtain ⟨ih1, ih2⟩ := ih (fun t' h => hk t' (by simp [h]))
    have ht := hk t (by simp)
    have hl : c.pos.length = (t.bits.take c.pos.length).length := by rw [List.length_take]; rw [hc.pos, ht]; omega
    have hl2 : N ≠ 0 → c.neg.length = (lastBits t.bits c.neg.length).length := by
      intro h
      rw [lastBits_pos (P := P) (by rw [ht, hc.neg]) (by rw [hc.neg]; exact h), List.length_drop, ht, hc.neg]; omega
    have hdom : Dominated P c.entry t ↔ BitsIn c.pos (t.bits.take P) ∧ BitsIn (t.bits.drop P) c.neg := by
      unfold Dominated; rw [ec1, ec2]
    unfold checkRelBSD
    rw [logicalAnd_eq hl]
    simp only
    have hlt : (c.pos.and (t.bits.take c.pos.length)).ones < c.pos.ones ↔ ¬ BitsIn c.pos (t.bits.take P) := by
      rw [ones_and_lt hl, hc.pos]
    by_cases h1 : BitsIn c.pos (t.bits.take P)
    · rw [if_neg (fun hh => hlt.1 hh h1)]
      constructor
      · intro r h
        cases h2 : logicalAnd c.neg (lastBits t.bits c.neg.length) with
        | error e => rw [h2] at h; cases h
        | ok fp =>
          rw [h2] at h
          simp only at h
          obtain ⟨hl', rfl⟩ := logicalAnd_ok h2
          have hlast := lastBits_ok (P := P) (by rw [ht, hc.neg]) h2
          rw [hlast] at hl' h
          have hio : (c.neg.and (t.bits.drop P)).ones = Bits.ones (t.bits.drop P) ↔ BitsIn (t.bits.drop P) c.neg := by
            rw [bits_and_comm]; exact ones_and_eq hl'.symm
          by_cases h3 : BitsIn (t.bits.drop P) c.neg
          · rw [if_pos (hio.2 h3)] at h
            cases h
            exact Or.inl ⟨rfl, t, by simp, hdom.2 ⟨h1, h3⟩⟩
          · rw [if_neg (fun hh => h3 (hio.1 hh))] at h
            rcases ih1 r h with ⟨rfl, t', ht', hd⟩ | ⟨rfl, hd⟩
            · exact Or.inl ⟨rfl, t', by simp [ht'], hd⟩
            · refine Or.inr ⟨rfl, ?_⟩
              intro t' ht'
              rcases List.mem_cons.1 ht' with rfl | ht'
              · rw [hdom]; exact fun hh => h3 hh.2
              · exact hd t' ht'
      · intro hN
        rw [logicalAnd_eq (hl2 hN)]
        simp only
        split
        · exact ⟨_, rfl⟩
        · exact ih2 hN
    · rw [if_pos (hlt.2 h1)]
      constructor
      · intro r h
        rcases ih1 r h with ⟨rfl, t', ht', hd⟩ | ⟨rfl, hd⟩
        · exact Or.inl ⟨rfl, t', by simp [ht'], hd⟩
        · refine Or.inr ⟨rfl, ?_⟩
          intro t' ht'
          rcases List.mem_cons.1 ht' with rfl | ht'
          · rw [hdom]; exact fun hh => h1 hh.1
          · exact hd t' ht'
      · exact ih2

theorem anyIdx_spec {p : Nat → Except PyErr Bool} {Q : Nat → Prop} (l : List Nat) (h : ∀ i ∈ l, ∃ b, p i = .ok b ∧ (b = true ↔ Q i)) :
    ∃ b, anyIdx p l = .ok b ∧ (b = true ↔ ∃ i ∈ l, Q i) := by
  induction l with
  | nil => exact ⟨false, rfl, by simp⟩
  | cons i is ih =>
    obtain ⟨b, h1, h2⟩ := h i (by simp)
    obtain ⟨b', h3, h4⟩ := ih (fun j hj => h j (by simp [hj]))
    unfold anyIdx
    rw [h1]
    cases b with
    | true => exact ⟨true, rfl, by simp only [true_iff]; exact ⟨i, by simp, h2.1 rfl⟩⟩
    | false =>
      simp only
      refine ⟨b', h3, h4.trans ?_⟩
      constructor
      · rintro ⟨j, hj, hq⟩; exact ⟨j, by simp [hj], hq⟩
      · rintro ⟨j, hj, hq⟩
        rcases List.mem_cons.1 hj with rfl | hj
        · exact absurd (h2.2 hq) (by simp)
        · exact ⟨j, hj, hq⟩

theorem bitAt_lt {b : Bits} {i : Nat} (h : i < b.length) : bitAt b i = .ok (b.get i) := by
  unfold bitAt
  rw [List.getElem?_eq_getElem h, Bits.get_lt _ _ h]

theorem inButNot_ok {x y : Bits} {i : Nat} (h1 : i < x.length) (h2 : i < y.length) :
    inButNot x y i = .ok (x.get i && !y.get i) := by
  unfold inButNot
  rw [bitAt_lt h1, bitAt_lt h2]
  cases x.get i <;> simp

theorem notInBut_ok {x y : Bits} {i : Nat} (h1 : i < x.length) (h2 : i < y.length) :
    notInBut x y i = .ok (!x.get i && y.get i) := by
  unfold notInBut
  rw [bitAt_lt h1, bitAt_lt h2]
  cases x.get i <;> simp

theorem get_take {b : Bits} {n i : Nat} : Bits.get (b.take n) i = (decide (i < n) && b.get i) := by
  unfold Bits.get
  simp only [List.getD_eq_getElem?_getD, List.getElem?_take]
  by_cases h : i < n <;> simp [h]

/-- some index below `n` distinguishes: `y` is not included in `x` among the first `n` bits -/
theorem anyIdx_notInBut {x y : Bits} {n : Nat} (h1 : n ≤ x.length) (h2 : n ≤ y.length) :
    ∃ b, anyIdx (notInBut x y) (List.range n) = .ok b ∧ (b = true ↔ ¬ BitsIn (y.take n) (x.take n)) := by
  obtain ⟨b, h3, h4⟩ := anyIdx_spec (p := notInBut x y) (Q := fun i => y.get i = true ∧ x.get i = false) (List.range n) (by
    intro i hi
    have hi := List.mem_range.1 hi
    refine ⟨_, notInBut_ok (by omega) (by omega), ?_⟩
    cases x.get i <;> simp)
  refine ⟨b, h3, h4.trans ?_⟩
  unfold BitsIn
  simp only [get_take]
  constructor
  · rintro ⟨i, hi, hy, hx⟩ hh
    have := hh i (by simp [List.mem_range.1 hi, hy])
    simp [hx] at this
  · intro hh
    by_contra hc
    apply hh
    intro i hi
    simp only [Bool.and_eq_true, decide_eq_true_eq] at hi ⊢
    refine ⟨hi.1, ?_⟩
    cases hx : x.get i with
    | true => rfl
    | false => exact absurd ⟨i, List.mem_range.2 hi.1, hi.2, hx⟩ hc

theorem anyIdx_inButNot {x y : Bits} {n : Nat} (h1 : n ≤ x.length) (h2 : n ≤ y.length) :
    ∃ b, anyIdx (inButNot x y) (List.range n) = .ok b ∧ (b = true ↔ ¬ BitsIn (x.take n) (y.take n)) := by
  obtain ⟨b, h3, h4⟩ := anyIdx_notInBut (x := y) (y := x) h2 h1
  have : ∀ l : List Nat, (∀ i ∈ l, i < n) → anyIdx (inButNot x y) l = anyIdx (notInBut y x) l := by
    intro l hl
    induction l with
    | nil => rfl
    | cons i is ih =>
      have hi := hl i (by simp)
      unfold anyIdx
      rw [inButNot_ok (by omega) (by omega), notInBut_ok (by omega) (by omega), Bool.and_comm, ih (fun j hj => hl j (by simp [hj]))]
  exact ⟨b, by rw [this _ (fun i hi => List.mem_range.1 hi)]; exact h3, h4⟩

/-- what the two closed variants compare -/
def seen (v : BSDVariant) (P : Nat) (b : Bits) : Bits :=
  match v with
  | .cpbsd => b.take P
  | _ => b

/-- the loop of `_checkRel` of CBSD and CPBSD -/
theorem checkRelC_spec {P N : Nat} {c : BSDCand} (hc : GoodCand P N c) {v : BSDVariant} (hv : v ≠ .bsd) (k : List BSDEntry)
    (hk : ∀ t ∈ k, t.bits.length = P + N) :
    ∃ r, (match v with
        | .cpbsd => checkRelC c.pos (fun _ => c.pos.length) c.entry.quality c.entry.pat k
        | _ => checkRelC (c.pos ++ c.neg) (fun t => t.bits.length) c.entry.quality c.entry.pat k) = .ok r ∧
      ((r = .irrelevant ∧ ∃ t ∈ k, t.quality = c.entry.quality) ∨
       (r = .relevant ∧ ∀ t ∈ k, t.quality = c.entry.quality → ¬ BitsIn (seen v P c.entry.bits) (seen v P t.bits)) ∨
       (∃ t ∈ k, r = .replaces t ∧ t.quality = c.entry.quality)) := by
  -- a common form of the test
  have key : ∀ (bits : Bits) (n : BSDEntry → Nat),
      (∀ t ∈ k, ∃ b, anyIdx (notInBut t.bits bits) (List.range (n t)) = .ok b ∧
        (b = true ↔ ¬ BitsIn (seen v P c.entry.bits) (seen v P t.bits))) →
      ∃ r, checkRelC bits n c.entry.quality c.entry.pat k = .ok r ∧
      ((r = .irrelevant ∧ ∃ t ∈ k, t.quality = c.entry.quality) ∨
       (r = .relevant ∧ ∀ t ∈ k, t.quality = c.entry.quality → ¬ BitsIn (seen v P c.entry.bits) (seen v P t.bits)) ∨
       (∃ t ∈ k, r = .replaces t ∧ t.quality = c.entry.quality)) := by
    intro bits n ht
    clear hk
    induction k with
    | nil => exact ⟨_, rfl, Or.inr (Or.inl ⟨rfl, by simp⟩)⟩
    | cons t ts ih =>
      obtain ⟨r, h1, h2⟩ := ih (fun t' h => ht t' (by simp [h]))
      obtain ⟨b, hb1, hb2⟩ := ht t (by simp)
      have lift : (t.quality = c.entry.quality → ¬ BitsIn (seen v P c.entry.bits) (seen v P t.bits)) →
          ((r = .irrelevant ∧ ∃ t' ∈ t :: ts, t'.quality = c.entry.quality) ∨
           (r = .relevant ∧ ∀ t' ∈ t :: ts, t'.quality = c.entry.quality → ¬ BitsIn (seen v P c.entry.bits) (seen v P t'.bits)) ∨
           (∃ t' ∈ t :: ts, r = .replaces t' ∧ t'.quality = c.entry.quality)) := by
        intro hne
        rcases h2 with ⟨rfl, t', ht', hq⟩ | ⟨rfl, hall⟩ | ⟨t', ht', rfl, hq⟩
        · exact Or.inl ⟨rfl, t', by simp [ht'], hq⟩
        · refine Or.inr (Or.inl ⟨rfl, ?_⟩)
          intro t' ht' hq
          rcases List.mem_cons.1 ht' with rfl | ht'
          · exact hne hq
          · exact hall t' ht' hq
        · exact Or.inr (Or.inr ⟨t', by simp [ht'], rfl, hq⟩)
      unfold checkRelC
      by_cases hq : t.quality = c.entry.quality
      · rw [if_pos hq, hb1]
        cases b with
        | true => simp only; exact ⟨r, h1, lift (fun _ => hb2.1 rfl)⟩
        | false =>
          simp only
          split
          · exact ⟨_, rfl, Or.inl ⟨rfl, t, by simp, hq⟩⟩
          · exact ⟨_, rfl, Or.inr (Or.inr ⟨t, by simp, rfl, hq⟩)⟩
      · rw [if_neg hq]
        exact ⟨r, h1, lift (fun h => absurd h hq)⟩
  cases v with
  | bsd => exact absurd rfl hv
  | cbsd =>
    apply key
    intro t ht
    have hl := hk t ht
    have hlen : (c.pos ++ c.neg).length = t.bits.length := by rw [List.length_append, hc.pos, hc.neg, hl]
    obtain ⟨b, h1, h2⟩ := anyIdx_notInBut (x := t.bits) (y := c.pos ++ c.neg) (n := t.bits.length) le_rfl (le_of_eq hlen.symm)
    refine ⟨b, h1, ?_⟩
    rw [List.take_length, ← hlen, List.take_length, ← hc.bits] at h2
    exact h2
  | cpbsd =>
    apply key
    intro t ht
    have hl := hk t ht
    obtain ⟨b, h1, h2⟩ := anyIdx_notInBut (x := t.bits) (y := c.pos) (n := c.pos.length) (by rw [hl, hc.pos]; omega) le_rfl
    refine ⟨b, h1, ?_⟩
    rw [h2, seen, seen, hc.bits, ← hc.pos]
    simp

/-- the body of the loop of `_checkRelevancies` -/
theorem stillRelevant_spec {P N : Nat} {c : BSDCand} (hc : GoodCand P N c) (v : BSDVariant) (t : BSDEntry) (ht : t.bits.length = P + N) :
    (∀ b, stillRelevant v c.pos c.neg c.entry.quality c.entry.pat t = .ok b →
      if b then t.pat.eq c.entry.pat = true ∨
          (match v with
            | .bsd => ¬ Dominated P t c.entry
            | _ => t.quality = c.entry.quality → ¬ BitsIn (seen v P t.bits) (seen v P c.entry.bits))
        else t.pat.eq c.entry.pat = false ∧ (match v with
            | .bsd => Dominated P t c.entry
            | _ => t.quality = c.entry.quality)) ∧
    ((v = .bsd → N ≠ 0) → ∃ b, stillRelevant v c.pos c.neg c.entry.quality c.entry.pat t = .ok b) := by
  have ec1 : c.entry.bits.take P = c.pos := by rw [hc.bits, ← hc.pos]; simp
  have ec2 : c.entry.bits.drop P = c.neg := by rw [hc.bits, ← hc.pos]; simp
  cases v with
  | bsd =>
    unfold stillRelevant
    simp only
    by_cases he : t.pat.eq c.entry.pat = true
    · rw [if_pos he]
      refine ⟨?_, fun _ => ⟨_, rfl⟩⟩
      intro b h; cases h; simp [he]
    · rw [if_neg he]
      have hl : c.pos.length = (t.bits.take c.pos.length).length := by rw [List.length_take]; rw [hc.pos, ht]; omega
      have hdom : Dominated P t c.entry ↔ BitsIn (t.bits.take P) c.pos ∧ BitsIn c.neg (t.bits.drop P) := by
        unfold Dominated; rw [ec1, ec2]
      rw [logicalAnd_eq hl]
      simp only
      have hlt : Bits.ones (t.bits.take c.pos.length) > (c.pos.and (t.bits.take c.pos.length)).ones ↔ ¬ BitsIn (t.bits.take P) c.pos := by
        rw [bits_and_comm, gt_iff_lt, ones_and_lt hl.symm, hc.pos]
      by_cases h1 : BitsIn (t.bits.take P) c.pos
      · rw [if_neg (fun hh => hlt.1 hh h1)]
        constructor
        · intro b h
          cases h2 : logicalAnd c.neg (lastBits t.bits c.neg.length) with
          | error e => rw [h2] at h; cases h
          | ok fp =>
            rw [h2] at h
            simp only at h
            obtain ⟨hl', rfl⟩ := logicalAnd_ok h2
            have hlast := lastBits_ok (P := P) (by rw [ht, hc.neg]) h2
            rw [hlast] at hl' h
            have hio := ones_and_eq hl'
            cases h
            by_cases h3 : BitsIn c.neg (t.bits.drop P)
            · have e := hio.2 h3
              rw [e]
              simp only [beq_self_eq_true, Bool.not_true, Bool.false_eq_true, if_false]
              exact ⟨by simpa using he, hdom.2 ⟨h1, h3⟩⟩
            · have e : (((c.neg.and (t.bits.drop P)).ones == c.neg.ones)) = false := by
                rw [beq_eq_false_iff_ne]; exact fun hh => h3 (hio.1 hh)
              rw [e]
              simp only [Bool.not_false, if_true]
              exact Or.inr (fun hd => h3 (hdom.1 hd).2)
        · intro hN
          have hN : N ≠ 0 := by simpa using hN
          have hl2 : c.neg.length = (lastBits t.bits c.neg.length).length := by
            rw [lastBits_pos (P := P) (by rw [ht, hc.neg]) (by rw [hc.neg]; exact hN), List.length_drop, ht, hc.neg]; omega
          rw [logicalAnd_eq hl2]
          exact ⟨_, rfl⟩
      · rw [if_pos (hlt.2 h1)]
        refine ⟨?_, fun _ => ⟨_, rfl⟩⟩
        intro b h
        cases h
        simp only [if_true]
        exact Or.inr (fun hd => h1 (hdom.1 hd).1)
  | cbsd =>
    unfold stillRelevant
    simp only
    by_cases he : (t.pat.eq c.entry.pat || decide (t.quality ≠ c.entry.quality)) = true
    · rw [if_pos he]
      refine ⟨?_, fun _ => ⟨_, rfl⟩⟩
      intro b h; cases h
      simp only [if_true]
      rw [Bool.or_eq_true, decide_eq_true_eq] at he
      rcases he with he | he
      · exact Or.inl he
      · exact Or.inr (fun h => absurd h he)
    · rw [if_neg he]
      rw [Bool.or_eq_true, decide_eq_true_eq, not_or, not_not] at he
      have hlen : (c.pos ++ c.neg).length = t.bits.length := by rw [List.length_append, hc.pos, hc.neg, ht]
      obtain ⟨b, h1, h2⟩ := anyIdx_inButNot (x := t.bits) (y := c.pos ++ c.neg) (n := t.bits.length) le_rfl (le_of_eq hlen.symm)
      refine ⟨?_, fun _ => ⟨b, h1⟩⟩
      intro b' h
      rw [h1] at h; cases h
      rw [List.take_length, ← hlen, List.take_length, ← hc.bits] at h2
      cases b with
      | true => simp only [if_true]; exact Or.inr (fun _ => h2.1 rfl)
      | false => simp only [Bool.false_eq_true, if_false]; exact ⟨by simpa using he.1, he.2⟩
  | cpbsd =>
    unfold stillRelevant
    simp only
    by_cases he : (t.pat.eq c.entry.pat || decide (t.quality ≠ c.entry.quality)) = true
    · rw [if_pos he]
      refine ⟨?_, fun _ => ⟨_, rfl⟩⟩
      intro b h; cases h
      simp only [if_true]
      rw [Bool.or_eq_true, decide_eq_true_eq] at he
      rcases he with he | he
      · exact Or.inl he
      · exact Or.inr (fun h => absurd h he)
    · rw [if_neg he]
      rw [Bool.or_eq_true, decide_eq_true_eq, not_or, not_not] at he
      obtain ⟨b, h1, h2⟩ := anyIdx_inButNot (x := t.bits) (y := c.pos) (n := c.pos.length) (by rw [ht, hc.pos]; omega) le_rfl
      refine ⟨?_, fun _ => ⟨b, h1⟩⟩
      intro b' h
      rw [h1] at h; cases h
      rw [List.take_length, hc.pos, ← ec1] at h2
      cases b with
      | true => simp only [if_true]; exact Or.inr (fun _ => h2.1 rfl)
      | false => simp only [Bool.false_eq_true, if_false]; exact ⟨by simpa using he.1, he.2⟩


/-! ## adding an entry -/

theorem splitBy_spec {p : BSDEntry → Except PyErr Bool} (l : List BSDEntry) :
    (∀ a d, splitBy p l = .ok (a, d) → a.Sublist l ∧ a.length + d.length = l.length ∧
      (∀ t ∈ a, p t = .ok true) ∧ (∀ t ∈ l, p t = .ok true → t ∈ a) ∧ (∀ t ∈ l, ∃ b, p t = .ok b) ∧ ∀ t ∈ d, t ∈ l ∧ p t = .ok false) ∧
    ((∀ t ∈ l, ∃ b, p t = .ok b) → ∃ r, splitBy p l = .ok r) := by
  induction l with
  | nil =>
    refine ⟨?_, fun _ => ⟨_, rfl⟩⟩
    intro a d h; cases h; simp
  | cons t ts ih =>
    obtain ⟨ih1, ih2⟩ := ih
    unfold splitBy
    constructor
    · intro a d h
      cases hp : p t with
      | error e => rw [hp] at h; cases h
      | ok b =>
        rw [hp] at h
        simp only at h
        cases hs : splitBy p ts with
        | error e => rw [hs] at h; cases h
        | ok r =>
          obtain ⟨a1, d1⟩ := r
          rw [hs] at h
          simp only at h
          obtain ⟨g1, g2, g3, g4, g5, g6⟩ := ih1 a1 d1 hs
          have g5' : ∀ t' ∈ t :: ts, ∃ b, p t' = .ok b := by
            intro t' ht'
            rcases List.mem_cons.1 ht' with rfl | ht'
            · exact ⟨b, hp⟩
            · exact g5 t' ht'
          cases b with
          | true =>
            rw [if_pos rfl] at h
            cases h
            refine ⟨g1.cons_cons _, by simp; omega, ?_, ?_, g5', fun t' ht' => ⟨by simp [(g6 t' ht').1], (g6 t' ht').2⟩⟩
            · intro t' ht'
              rcases List.mem_cons.1 ht' with rfl | ht'
              · exact hp
              · exact g3 t' ht'
            · intro t' ht' hh
              rcases List.mem_cons.1 ht' with rfl | ht'
              · simp
              · simp [g4 t' ht' hh]
          | false =>
            rw [if_neg (by simp)] at h
            cases h
            refine ⟨g1.cons _, by simp; omega, g3, ?_, g5', ?_⟩
            · intro t' ht' hh
              rcases List.mem_cons.1 ht' with rfl | ht'
              · rw [hp] at hh; cases hh
              · exact g4 t' ht' hh
            · intro t' ht'
              rcases List.mem_cons.1 ht' with rfl | ht'
              · exact ⟨by simp, hp⟩
              · exact ⟨by simp [(g6 t' ht').1], (g6 t' ht').2⟩
    · intro h
      obtain ⟨b, hb⟩ := h t (by simp)
      obtain ⟨r, hr⟩ := ih2 (fun t' ht' => h t' (by simp [ht']))
      obtain ⟨a1, d1⟩ := r
      rw [hb]; simp only; rw [hr]
      exact ⟨_, rfl⟩

/-- a subgroup with the right number of bits and a quality above that of the dummy -/
def RealE (len : Nat) (e : BSDEntry) : Prop := e.pat.sels ≠ [] ∧ e.bits.length = len ∧ -99999 < e.quality

/-- the list: only the dummy, or only subgroups, at most `num` of them, by increasing quality -/
structure KInv (num len : Nat) (k : List BSDEntry) : Prop where
  shape : k = [BSDEntry.dummy] ∨ (k ≠ [] ∧ k.length ≤ num ∧ ∀ e ∈ k, RealE len e)
  sorted : k.Pairwise (fun a b => a.quality ≤ b.quality)

theorem realEntries_of {len : Nat} {k : List BSDEntry} (h : ∀ e ∈ k, RealE len e) : realEntries k = k := by
  unfold realEntries
  rw [List.filter_eq_self]
  intro e he
  exact decide_eq_true (h e he).1

theorem realEntries_dummy : realEntries [BSDEntry.dummy] = [] := by decide +kernel

theorem KInv.real {num len : Nat} {k : List BSDEntry} (h : KInv num len k) :
    (∀ e ∈ realEntries k, RealE len e) ∧ ((realEntries k).length ≤ num) := by
  rcases h.shape with rfl | ⟨_, h2, h3⟩
  · rw [realEntries_dummy]; simp
  · rw [realEntries_of h3]; exact ⟨h3, h2⟩

theorem Apart.symm {v : BSDVariant} {P : Nat} {a b : BSDEntry} (h : Apart v P a b) : Apart v P b a := by
  cases v with
  | bsd => exact ⟨h.2, h.1⟩
  | cbsd => exact fun hq he => h hq.symm he.symm
  | cpbsd => exact fun hq he => h hq.symm he.symm

theorem pattern_eq_refl (p : Pattern) : p.eq p = true := (Pattern.eq_iff_keys p p).2 rfl

abbrev byQuality : BSDEntry → BSDEntry → Bool := fun a b => decide (a.quality ≤ b.quality)

theorem sorted_byQuality (l : List BSDEntry) : (stableSort byQuality l).Pairwise (fun a b => a.quality ≤ b.quality) := by
  have := pairwise_stableSort (le := byQuality) (fun a b c h1 h2 => by
      simp only [byQuality, decide_eq_true_iff] at *; exact le_trans h1 h2)
    (fun a b => by simp only [byQuality, Bool.or_eq_true, decide_eq_true_iff]; exact le_total _ _) l
  exact this.imp (fun h => by simpa only [byQuality, decide_eq_true_iff] using h)

/-- after the sort and the elimination of the dummy -/
theorem dropDummy_spec {len : Nat} {k : List BSDEntry} {c : BSDEntry} (hk : k = [BSDEntry.dummy] ∨ ∀ e ∈ k, RealE len e) (hc : RealE len c) :
    (dropDummy (stableSort byQuality (k ++ [c]))).Perm (realEntries k ++ [c]) ∧
    (dropDummy (stableSort byQuality (k ++ [c]))).Pairwise (fun a b => a.quality ≤ b.quality) := by
  rcases hk with rfl | hk
  · rw [realEntries_dummy]
    have hq : byQuality BSDEntry.dummy c = true := decide_eq_true (le_of_lt hc.2.2)
    have : stableSort byQuality ([BSDEntry.dummy] ++ [c]) = [BSDEntry.dummy, c] := by
      simp only [stableSort, List.singleton_append, List.foldr_cons, List.foldr_nil, sortedInsert]
      rw [if_pos hq]
    rw [this]
    have : dropDummy [BSDEntry.dummy, c] = [c] := rfl
    rw [this]
    exact ⟨List.Perm.refl _, by simp⟩
  · have hp : (stableSort byQuality (k ++ [c])).Perm (k ++ [c]) := stableSort_perm _
    have hall : ∀ e ∈ stableSort byQuality (k ++ [c]), e.pat.sels ≠ [] := by
      intro e he
      rcases List.mem_append.1 (hp.mem_iff.1 he) with h | h
      · exact (hk e h).1
      · rw [List.mem_singleton.1 h]; exact hc.1
    have : dropDummy (stableSort byQuality (k ++ [c])) = stableSort byQuality (k ++ [c]) := by
      unfold dropDummy
      split
      · rename_i h; rw [h]
      · rename_i e0 rest h
        rw [if_neg (hall e0 (by rw [h]; simp)), h]
    rw [this, realEntries_of hk]
    exact ⟨hp, sorted_byQuality _⟩

theorem tail_ge {l : List BSDEntry} (hs : l.Pairwise (fun a b => a.quality ≤ b.quality)) (hl : 1 < l.length) {e : BSDEntry} (he : e ∈ l) :
    ∃ e' ∈ l.tail, e.quality ≤ e'.quality := by
  match l, hl with
  | a :: b :: l', _ =>
    rcases List.mem_cons.1 he with rfl | he
    · exact ⟨b, by simp, (List.pairwise_cons.1 hs).1 b (by simp)⟩
    · exact ⟨e, he, le_refl _⟩

/-- what adding an entry does -/
structure InsertSpec (v : BSDVariant) (num P N : Nat) (st : BSDState) (c : BSDEntry) (st' : BSDState) : Prop where
  inv : KInv num (P + N) st'.k
  rest : st' = { st with k := st'.k, irrelevants := st'.irrelevants, unselected := st'.unselected }
  account : st'.unselected + (realEntries st'.k).length = st.unselected + (realEntries st.k).length + 1
  mem : ∀ e ∈ realEntries st'.k, e ∈ realEntries st.k ∨ e = c
  pairs : (∀ t ∈ realEntries st.k, t.pat.eq c.pat = false) → (v = .bsd → ∀ t ∈ realEntries st.k, ¬ Dominated P c t) →
    (realEntries st.k).Pairwise (Apart v P) → (realEntries st'.k).Pairwise (Apart v P)
  best : (v = .bsd → ∀ t ∈ realEntries st.k, Dominated P t c → t.quality ≤ c.quality) →
    ∀ e ∈ realEntries st.k, BestGe st' e.quality
  bestNew : BestGe st' c.quality

theorem insert_spec {v : BSDVariant} {num P N : Nat} {st : BSDState} {c : BSDCand} (hc : GoodCand P N c) (hn : 0 < num)
    (hk : st.k = [BSDEntry.dummy] ∨ ∀ e ∈ st.k, RealE (P + N) e) (hlen : (realEntries st.k).length ≤ num) :
    (∀ st', insert v num st c.entry c.pos c.neg = .ok st' → InsertSpec v num P N st c.entry st') ∧
    ((v = .bsd → N ≠ 0) → ∃ st', insert v num st c.entry c.pos c.neg = .ok st') := by
  have hcr : RealE (P + N) c.entry := ⟨hc.sels, by rw [hc.bits, List.length_append, hc.pos, hc.neg], hc.quality⟩
  obtain ⟨hp, hs⟩ := dropDummy_spec hk hcr
  have hre : ∀ e ∈ realEntries st.k, RealE (P + N) e := by
    rcases hk with h | h
    · rw [h, realEntries_dummy]; simp
    · rw [realEntries_of h]; exact h
  unfold insert
  have hL : ∀ t ∈ dropDummy (stableSort (fun a b : BSDEntry => decide (a.quality ≤ b.quality)) (st.k ++ [c.entry])), t ∈ realEntries st.k ∨ t = c.entry := by
    intro t ht
    have := hp.mem_iff.1 ht
    simpa using this
  have hLr : ∀ t ∈ dropDummy (stableSort (fun a b : BSDEntry => decide (a.quality ≤ b.quality)) (st.k ++ [c.entry])), RealE (P + N) t := by
    intro t ht
    rcases hL t ht with h | rfl
    · exact hre t h
    · exact hcr
  have hcL : c.entry ∈ dropDummy (stableSort (fun a b : BSDEntry => decide (a.quality ≤ b.quality)) (st.k ++ [c.entry])) := hp.mem_iff.2 (by simp)
  have hlenL := hp.length_eq
  rw [List.length_append, List.length_singleton] at hlenL
  generalize dropDummy (stableSort (fun a b : BSDEntry => decide (a.quality ≤ b.quality)) (st.k ++ [c.entry])) = L at *
  obtain ⟨hsp1, hsp2⟩ := splitBy_spec (p := stillRelevant v c.pos c.neg c.entry.quality c.entry.pat) L
  constructor
  · intro st' h
    cases hsplit : splitBy (stillRelevant v c.pos c.neg c.entry.quality c.entry.pat) L with
    | error e => rw [hsplit] at h; cases h
    | ok r =>
      obtain ⟨aux, out⟩ := r
      rw [hsplit] at h
      simp only at h
      obtain ⟨g1, g2, g3, g4, g5, g6⟩ := hsp1 aux out hsplit
      have hcaux : c.entry ∈ aux := by
        refine g4 _ hcL ?_
        obtain ⟨b, hb⟩ := g5 _ hcL
        have := (stillRelevant_spec hc v c.entry hcr.2.1).1 b hb
        cases b with
        | true => exact hb
        | false =>
          rw [if_neg (by simp)] at this
          rw [pattern_eq_refl] at this
          exact absurd this.1 (by simp)
      have haux : ∀ e ∈ aux, RealE (P + N) e := fun e he => hLr e (g1.subset he)
      have hauxs := hs.sublist g1
      -- the final list is `aux` or its tail
      have hfin : ∃ k', st' = { st with k := k', irrelevants := st'.irrelevants, unselected := st'.unselected } ∧ k'.Sublist aux ∧ k' ≠ [] ∧
          k'.length ≤ num ∧ st'.unselected + k'.length = st.unselected + out.length + aux.length ∧
          ∀ e ∈ aux, ∃ e' ∈ k', e.quality ≤ e'.quality := by
        by_cases hgt : aux.length > num
        · rw [if_pos hgt] at h
          match aux, h, hgt, hauxs, g2, g1 with
          | a :: aux', h, hgt, hauxs, g2, g1 =>
            simp only at h
            cases h
            simp only [List.length_cons] at hgt g2
            refine ⟨aux', rfl, List.sublist_cons_self _ _, ?_, by omega, by simp only [List.length_cons]; omega, ?_⟩
            · rintro rfl; simp at hgt; omega
            · intro e he
              exact tail_ge hauxs (by simp only [List.length_cons]; omega) he
        · rw [if_neg hgt] at h
          cases h
          exact ⟨aux, rfl, List.Sublist.refl _, List.ne_nil_of_mem hcaux, by omega, by simp only, fun e he => ⟨e, he, le_refl _⟩⟩
      obtain ⟨k', f1, f2, f3, f4, f5, f6⟩ := hfin
      have hk' : st'.k = k' := by rw [f1]
      have hk'r : ∀ e ∈ k', RealE (P + N) e := fun e he => haux e (f2.subset he)
      have hreal : realEntries st'.k = k' := by rw [hk', realEntries_of hk'r]
      refine ⟨⟨Or.inr ⟨by rw [hk']; exact f3, by rw [hk']; exact f4, by rw [hk']; exact hk'r⟩, by rw [hk']; exact hauxs.sublist f2⟩, ?_, ?_, ?_, ?_, ?_, ?_⟩
      · rw [hk']; exact f1
      · rw [hreal, f5]; omega
      · intro e he
        rw [hreal] at he
        exact hL e (g1.subset (f2.subset he))
      · intro hne hnd hpw
        rw [hreal]
        have hLp : (realEntries st.k ++ [c.entry]).Pairwise (fun a b => a ∈ aux → b ∈ aux → Apart v P a b) := by
          rw [List.pairwise_append]
          refine ⟨hpw.imp (fun h _ _ => h), by simp, ?_⟩
          intro t ht b hb hta _
          rw [List.mem_singleton.1 hb]
          have hsr := (stillRelevant_spec hc v t (hre t ht).2.1).1 true (g3 t hta)
          rw [if_pos rfl] at hsr
          rcases hsr with hsr | hsr
          · rw [hne t ht] at hsr; cases hsr
          · cases v with
            | bsd => exact ⟨hsr, hnd rfl t ht⟩
            | cbsd =>
              intro hq he
              apply hsr hq
              rw [he]; exact fun i hi => hi
            | cpbsd =>
              intro hq he
              apply hsr hq
              simp only [seen]
              rw [he]; exact fun i hi => hi
        have hLL : L.Pairwise (fun a b => a ∈ aux → b ∈ aux → Apart v P a b) :=
          (hp.pairwise_iff (fun {a b} h h1 h2 => Apart.symm (v := v) (P := P) (h h2 h1))).2 hLp
        refine ((hLL.sublist (f2.trans g1))).imp_of_mem ?_
        intro a b ha hb h
        exact h (f2.subset ha) (f2.subset hb)
      · intro hmono e he
        have heL : e ∈ L := hp.mem_iff.2 (by simp [he])
        obtain ⟨b, hb⟩ := g5 e heL
        cases b with
        | true =>
          obtain ⟨e', h1, h2⟩ := f6 e (g4 e heL hb)
          exact ⟨e', by rw [hk']; exact h1, h2⟩
        | false =>
          have hsr := (stillRelevant_spec hc v e (hre e he).2.1).1 false hb
          rw [if_neg (by simp)] at hsr
          have hle : e.quality ≤ c.entry.quality := by
            cases v with
            | bsd => exact hmono rfl e he hsr.2
            | cbsd => exact le_of_eq hsr.2
            | cpbsd => exact le_of_eq hsr.2
          obtain ⟨e', h1, h2⟩ := f6 _ hcaux
          exact ⟨e', by rw [hk']; exact h1, hle.trans h2⟩
      · obtain ⟨e', h1, h2⟩ := f6 _ hcaux
        exact ⟨e', by rw [hk']; exact h1, h2⟩
  · intro hN
    obtain ⟨r, hr⟩ := hsp2 (fun t ht => (stillRelevant_spec hc v t (hLr t ht).2.1).2 hN)
    obtain ⟨aux, out⟩ := r
    rw [hr]
    simp only
    by_cases hgt : aux.length > num
    · rw [if_pos hgt]
      match aux, hgt with
      | a :: aux', _ => exact ⟨_, rfl⟩
    · rw [if_neg hgt]; exact ⟨_, rfl⟩

/-- what handling a candidate does -/
structure HandleSpec (v : BSDVariant) (num P N : Nat) (st : BSDState) (c : BSDEntry) (st' : BSDState) (kept : Bool) : Prop where
  inv : KInv num (P + N) st'.k
  rest : st' = { st with k := st'.k, irrelevants := st'.irrelevants, unselected := st'.unselected, visited := st.visited + 1,
                         calls := st.calls ++ [c], pruned := st.pruned + (if kept then 0 else 1) }
  account : st'.unselected + (realEntries st'.k).length = st.unselected + (realEntries st.k).length + 1
  mem : ∀ e ∈ realEntries st'.k, e ∈ realEntries st.k ∨ e = c
  pairs : (∀ t ∈ realEntries st.k, t.pat.eq c.pat = false) →
    (realEntries st.k).Pairwise (Apart v P) → (realEntries st'.k).Pairwise (Apart v P)
  best : (v = .bsd → ∀ t ∈ realEntries st.k, Dominated P t c → t.quality ≤ c.quality) →
    ∀ e ∈ st.k, BestGe st' e.quality
  bestNew : (v = .bsd → ∀ t ∈ realEntries st.k, Dominated P c t → c.quality ≤ t.quality) → c.quality ≤ c.oe → BestGe st' c.quality
  bestOe : kept = false → BestGe st' c.oe

theorem realEntries_sub {k : List BSDEntry} {e : BSDEntry} (h : e ∈ realEntries k) : e ∈ k := List.mem_of_mem_filter h

theorem not_above {v : BSDVariant} {x m : Rat} (h : above v x m = false) : x ≤ m := by
  cases v with
  | bsd => unfold above at h; rw [decide_eq_false_iff_not] at h; exact not_lt.1 h
  | cbsd => unfold above at h; rw [decide_eq_false_iff_not] at h; exact le_of_lt (not_le.1 h)
  | cpbsd => unfold above at h; rw [decide_eq_false_iff_not] at h; exact le_of_lt (not_le.1 h)

/-- what `_checkRel` decides on a list that satisfies the invariant -/
theorem checkRel_spec {v : BSDVariant} {num P N : Nat} {k : List BSDEntry} {c : BSDCand} (hc : GoodCand P N c) (hk : KInv num (P + N) k) :
    (∀ r, checkRel v k c.pos c.neg c.entry.quality c.entry.pat = .ok r →
      (r = .irrelevant ∧ (v = .bsd → ∃ t ∈ realEntries k, Dominated P c.entry t) ∧ (v ≠ .bsd → ∃ t ∈ realEntries k, t.quality = c.entry.quality)) ∨
      (r = .relevant ∧ (v = .bsd → ∀ t ∈ realEntries k, ¬ Dominated P c.entry t)) ∨
      (∃ t ∈ realEntries k, r = .replaces t ∧ v ≠ .bsd ∧ t.quality = c.entry.quality ∧ k ≠ [BSDEntry.dummy])) ∧
    ((v = .bsd → N ≠ 0) → ∃ r, checkRel v k c.pos c.neg c.entry.quality c.entry.pat = .ok r) := by
  rcases hk.shape with rfl | ⟨hne, _, hr⟩
  · rw [realEntries_dummy]
    have : checkRel v [BSDEntry.dummy] c.pos c.neg c.entry.quality c.entry.pat = .ok .relevant := rfl
    rw [this]
    refine ⟨?_, fun _ => ⟨_, rfl⟩⟩
    intro r h; cases h
    exact Or.inr (Or.inl ⟨rfl, by simp⟩)
  · rw [realEntries_of hr]
    have hlen : ∀ t ∈ k, t.bits.length = P + N := fun t ht => (hr t ht).2.1
    have hnd : k ≠ [BSDEntry.dummy] := by
      rintro rfl
      exact (hr _ (List.mem_singleton.2 rfl)).1 rfl
    have hcons : ∃ e0 k', k = e0 :: k' ∧ e0.pat.sels ≠ [] := by
      cases k with
      | nil => exact absurd rfl hne
      | cons e0 k' => exact ⟨e0, k', rfl, (hr e0 (by simp)).1⟩
    obtain ⟨e0, k', hke, h0⟩ := hcons
    have e1 : checkRel v k c.pos c.neg c.entry.quality c.entry.pat = (match v with
      | .bsd => checkRelBSD c.pos c.neg k
      | .cbsd => checkRelC (c.pos ++ c.neg) (fun t => t.bits.length) c.entry.quality c.entry.pat k
      | .cpbsd => checkRelC c.pos (fun _ => c.pos.length) c.entry.quality c.entry.pat k) := by
      rw [hke]; unfold checkRel; simp only; rw [if_neg h0]; cases v <;> rfl
    rw [e1]
    cases v with
    | bsd =>
      obtain ⟨g1, g2⟩ := checkRelBSD_spec hc k hlen
      refine ⟨?_, fun h => g2 (h rfl)⟩
      intro r h
      rcases g1 r h with ⟨rfl, ht⟩ | ⟨rfl, ht⟩
      · exact Or.inl ⟨rfl, fun _ => ht, fun h => absurd rfl h⟩
      · exact Or.inr (Or.inl ⟨rfl, fun _ => ht⟩)
    | cbsd =>
      obtain ⟨r, g1, g2⟩ := checkRelC_spec hc (v := .cbsd) (by simp) k hlen
      simp only at g1
      simp only
      rw [g1]
      refine ⟨?_, fun _ => ⟨_, rfl⟩⟩
      intro r' h; cases h
      rcases g2 with ⟨rfl, ht⟩ | ⟨rfl, ht⟩ | ⟨t, ht, rfl, hq⟩
      · exact Or.inl ⟨rfl, by simp, fun _ => ht⟩
      · exact Or.inr (Or.inl ⟨rfl, by simp⟩)
      · exact Or.inr (Or.inr ⟨t, ht, rfl, by simp, hq, hnd⟩)
    | cpbsd =>
      obtain ⟨r, g1, g2⟩ := checkRelC_spec hc (v := .cpbsd) (by simp) k hlen
      simp only at g1
      simp only
      rw [g1]
      refine ⟨?_, fun _ => ⟨_, rfl⟩⟩
      intro r' h; cases h
      rcases g2 with ⟨rfl, ht⟩ | ⟨rfl, ht⟩ | ⟨t, ht, rfl, hq⟩
      · exact Or.inl ⟨rfl, by simp, fun _ => ht⟩
      · exact Or.inr (Or.inl ⟨rfl, by simp⟩)
      · exact Or.inr (Or.inr ⟨t, ht, rfl, by simp, hq, hnd⟩)

theorem erase_real {len : Nat} {k : List BSDEntry} (t : BSDEntry) (h : ∀ e ∈ k, RealE len e) : ∀ e ∈ k.erase t, RealE len e :=
  fun e he => h e (List.mem_of_mem_erase he)

theorem handle_eq {v : BSDVariant} {num : Nat} {st : BSDState} {c : BSDEntry} {cpos cneg : Bits} {e0 : BSDEntry} {k' : List BSDEntry} (hk : st.k = e0 :: k') :
    handle v num st c cpos cneg =
    if above v c.oe e0.quality || decide (st.k.length < num) then
      if above v c.quality e0.quality || decide (st.k.length < num) then
        match checkRel v st.k cpos cneg c.quality c.pat with
        | .error e => .error e
        | .ok .irrelevant =>
          .ok ({ st with visited := st.visited + 1, calls := st.calls ++ [c], unselected := st.unselected + 1, irrelevants := st.irrelevants ++ [rejected v c.pat c.quality cpos cneg] }, true)
        | .ok .relevant =>
          match insert v num { st with visited := st.visited + 1, calls := st.calls ++ [c] } c cpos cneg with
          | .error e => .error e
          | .ok st' => .ok (st', true)
        | .ok (.replaces t) =>
          match insert v num { st with visited := st.visited + 1, calls := st.calls ++ [c], k := st.k.erase t, irrelevants := st.irrelevants ++ [forget t], unselected := st.unselected + 1 } c cpos cneg with
          | .error e => .error e
          | .ok st' => .ok (st', true)
      else .ok ({ st with visited := st.visited + 1, calls := st.calls ++ [c], unselected := st.unselected + 1 }, true)
    else .ok ({ st with visited := st.visited + 1, calls := st.calls ++ [c], unselected := st.unselected + 1, pruned := st.pruned + 1 }, false) := by
  unfold handle
  simp only [hk]
  rfl

theorem handle_spec {v : BSDVariant} {num P N : Nat} {st : BSDState} {c : BSDCand} (hc : GoodCand P N c) (hn : 0 < num)
    (hk : KInv num (P + N) st.k) :
    (∀ st' kept, handle v num st c.entry c.pos c.neg = .ok (st', kept) → HandleSpec v num P N st c.entry st' kept) ∧
    ((v = .bsd → N ≠ 0) → ∃ r, handle v num st c.entry c.pos c.neg = .ok r) := by
  have hcons : ∃ e0 k', st.k = e0 :: k' := by
    rcases hk.shape with h | ⟨h, _⟩
    · exact ⟨_, _, h⟩
    · cases hh : st.k with
      | nil => exact absurd hh h
      | cons a b => exact ⟨a, b, rfl⟩
  obtain ⟨e0, k', hke⟩ := hcons
  have hk2 : st.k = [BSDEntry.dummy] ∨ ∀ e ∈ st.k, RealE (P + N) e := by
    rcases hk.shape with h | ⟨_, _, h⟩
    · exact Or.inl h
    · exact Or.inr h
  have hge : ∀ x, x ≤ e0.quality → BestGe { st with k := st.k } x := fun x hx => ⟨e0, by simp [hke], hx⟩
  rw [handle_eq hke]
  obtain ⟨hr1, hr2⟩ := checkRel_spec (v := v) hc hk
  -- the insertion from a state with the same list
  have hins := fun (st0 : BSDState) (h0 : st0.k = st.k) =>
    insert_spec (v := v) (st := st0) hc hn (by rw [h0]; exact hk2) (by rw [h0]; exact hk.real.2)
  -- the best quality when the dummy disappears
  have hdummy : ∀ st' : BSDState, (∀ e ∈ realEntries st.k, BestGe st' e.quality) → BestGe st' c.entry.quality → ∀ e ∈ st.k, BestGe st' e.quality := by
    intro st' h1 h2 e he
    rcases hk2 with h | h
    · rw [h] at he
      rw [List.mem_singleton.1 he]
      obtain ⟨e', h3, h4⟩ := h2
      exact ⟨e', h3, le_of_lt (lt_of_lt_of_le hc.quality h4)⟩
    · exact h1 e (by rw [realEntries_of h]; exact he)
  have hwill : (above v c.entry.oe e0.quality || decide (st.k.length < num)) = true ∨ (above v c.entry.oe e0.quality || decide (st.k.length < num)) = false := by
    cases (above v c.entry.oe e0.quality || decide (st.k.length < num)) <;> simp
  rcases hwill with hw | hw
  · rw [if_pos hw]
    have hwill2 : (above v c.entry.quality e0.quality || decide (st.k.length < num)) = true ∨ (above v c.entry.quality e0.quality || decide (st.k.length < num)) = false := by
      cases (above v c.entry.quality e0.quality || decide (st.k.length < num)) <;> simp
    rcases hwill2 with hw2 | hw2
    · rw [if_pos hw2]
      constructor
      · intro st' kept h
        cases hr : checkRel v st.k c.pos c.neg c.entry.quality c.entry.pat with
        | error e => rw [hr] at h; cases h
        | ok r =>
          rw [hr] at h
          rcases hr1 r hr with ⟨rfl, ht1, ht2⟩ | ⟨rfl, ht⟩ | ⟨t, ht, rfl, hv, hq, hnd⟩
          · simp only at h
            cases h
            refine ⟨hk, by simp, by simp only; omega, fun e he => Or.inl he, fun _ h => h, fun _ e he => ⟨e, he, le_refl _⟩, ?_, by simp⟩
            intro hm _
            by_cases hv : v = .bsd
            · obtain ⟨t, h1, h2⟩ := ht1 hv
              exact ⟨t, realEntries_sub h1, hm hv t h1 h2⟩
            · obtain ⟨t, h1, h2⟩ := ht2 hv
              exact ⟨t, realEntries_sub h1, le_of_eq h2.symm⟩
          · simp only at h
            cases hi : insert v num { st with visited := st.visited + 1, calls := st.calls ++ [c.entry] } c.entry c.pos c.neg with
            | error e => rw [hi] at h; cases h
            | ok st1 =>
              rw [hi] at h
              cases h
              have hs := (hins { st with visited := st.visited + 1, calls := st.calls ++ [c.entry] } rfl).1 _ hi
              refine ⟨hs.inv, ?_, hs.account, hs.mem, fun h1 h2 => hs.pairs h1 ht h2, ?_, fun _ _ => hs.bestNew, by simp⟩
              · have := hs.rest
                simp only at this
                simp only [if_true, Nat.add_zero]
                exact this
              · intro hm
                exact hdummy _ (hs.best hm) hs.bestNew
          · simp only at h
            have hreal : ∀ e ∈ st.k, RealE (P + N) e := by
              rcases hk2 with h | h
              · exact absurd h hnd
              · exact h
            cases hi : insert v num { st with visited := st.visited + 1, calls := st.calls ++ [c.entry], k := st.k.erase t, irrelevants := st.irrelevants ++ [forget t], unselected := st.unselected + 1 } c.entry c.pos c.neg with
            | error e => rw [hi] at h; cases h
            | ok st1 =>
              rw [hi] at h
              cases h
              have her := erase_real t hreal
              have htk : t ∈ st.k := realEntries_sub ht
              have hle := List.length_erase_of_mem htk
              have hpos := List.length_pos_of_mem htk
              have hlen := hk.real.2
              rw [realEntries_of hreal] at hlen
              have hs := (insert_spec (v := v) (num := num) (P := P) (N := N) hc hn (Or.inr her) (by
                rw [realEntries_of her]; omega)).1 _ hi
              have e1 : realEntries (st.k.erase t) = st.k.erase t := realEntries_of her
              have e2 : realEntries st.k = st.k := realEntries_of hreal
              have hsub : ∀ e ∈ realEntries (st.k.erase t), e ∈ realEntries st.k := by
                intro e he; rw [e1] at he; rw [e2]; exact List.mem_of_mem_erase he
              refine ⟨hs.inv, ?_, ?_, ?_, ?_, ?_, fun _ _ => hs.bestNew, by simp⟩
              · have := hs.rest
                simp only at this
                simp only [if_true, Nat.add_zero]
                exact this
              · have := hs.account
                simp only [e1] at this
                rw [e2]
                omega
              · intro e he
                rcases hs.mem e he with h | h
                · exact Or.inl (hsub e h)
                · exact Or.inr h
              · intro h1 h2
                refine hs.pairs (fun t' ht' => h1 t' (hsub t' ht')) (fun h => absurd h hv) ?_
                simp only [e1]
                rw [e2] at h2
                exact h2.sublist List.erase_sublist
              · intro hm e he
                by_cases het : e = t
                · rw [het, hq]; exact hs.bestNew
                · refine hs.best (fun h => absurd h hv) e ?_
                  simp only [e1]
                  exact (List.mem_erase_of_ne het).2 he
      · intro hN
        obtain ⟨r, hr⟩ := hr2 hN
        rw [hr]
        rcases hr1 r hr with ⟨rfl, _⟩ | ⟨rfl, _⟩ | ⟨t, ht, rfl, hv, hq, hnd⟩
        · exact ⟨_, rfl⟩
        · simp only
          obtain ⟨st1, h1⟩ := (hins { st with visited := st.visited + 1, calls := st.calls ++ [c.entry] } rfl).2 hN
          rw [h1]; exact ⟨_, rfl⟩
        · simp only
          have hreal : ∀ e ∈ st.k, RealE (P + N) e := by
            rcases hk2 with h | h
            · exact absurd h hnd
            · exact h
          have her := erase_real t hreal
          have htk : t ∈ st.k := realEntries_sub ht
          have hle := List.length_erase_of_mem htk
          have hlen := hk.real.2
          rw [realEntries_of hreal] at hlen
          obtain ⟨st1, h1⟩ := (insert_spec (v := v) (num := num) (P := P) (N := N)
            (st := { st with visited := st.visited + 1, calls := st.calls ++ [c.entry], k := st.k.erase t, irrelevants := st.irrelevants ++ [forget t], unselected := st.unselected + 1 }) hc hn (Or.inr her) (by
                rw [realEntries_of her]; omega)).2 hN
          rw [h1]; exact ⟨_, rfl⟩
    · rw [if_neg (by rw [hw2]; simp)]
      refine ⟨?_, fun _ => ⟨_, rfl⟩⟩
      intro st' kept h
      cases h
      refine ⟨hk, by simp, by simp only; omega, fun e he => Or.inl he, fun _ h => h, fun _ e he => ⟨e, he, le_refl _⟩, ?_, by simp⟩
      intro _ _
      exact ⟨e0, by simp [hke], not_above (Bool.or_eq_false_iff.1 hw2).1⟩
  · rw [if_neg (by rw [hw]; simp)]
    refine ⟨?_, fun _ => ⟨_, rfl⟩⟩
    intro st' kept h
    cases h
    have ho := not_above (Bool.or_eq_false_iff.1 hw).1
    refine ⟨hk, by simp, by simp only; omega, fun e he => Or.inl he, fun _ h => h, fun _ e he => ⟨e, he, le_refl _⟩, ?_, ?_⟩
    · intro _ h
      exact ⟨e0, by simp [hke], h.trans ho⟩
    · intro _
      exact ⟨e0, by simp [hke], ho⟩

end BSD
end Verif

import Verif.Model.SpecialFloats
import Verif.Props.Pattern
import Mathlib.Algebra.Order.Archimedean.Basic
import Mathlib.Data.Rat.Floor
/-! Without `nan` the comparisons of selectors with special values are those of selectors with large integers instead of the infinities. -/
namespace Verif
open Spec

/-- an ordinary value that compares like the given one with everything between `-B` and `B` -/
def XVal.plain (B : Int) : XVal → Val
  | .val v => v
  | .nan => .int 0
  | .pinf => .int B
  | .ninf => .int (-B)
  | .nzero => .int 0

/-- not `nan`, and an ordinary number lies between `-B` and `B` -/
def XVal.Fits (B : Int) : XVal → Prop
  | .val v => v.isStr = false → (-(B : Rat) < v.num ∧ v.num < B)
  | .nan => False
  | _ => True

def XSelector.plain (B : Int) (s : XSelector) : Selector := ⟨s.attr, s.op, s.val.plain B⟩

def XSelector.Fits (B : Int) (s : XSelector) : Prop := s.val.Fits B

theorem XVal.Fits.mono {B C : Int} (h : B ≤ C) {v : XVal} (hv : v.Fits B) : v.Fits C := by
  cases v with
  | val v =>
    intro hs
    have := hv hs
    have hc : (B : Rat) ≤ C := by exact_mod_cast h
    exact ⟨by linarith, by linarith⟩
  | nan => exact hv
  | _ => trivial

theorem XVal.exists_fits (v : XVal) (h : v ≠ .nan) : ∃ B : Int, 0 < B ∧ v.Fits B := by
  cases v with
  | nan => exact absurd rfl h
  | val v =>
    obtain ⟨n, hn⟩ := exists_nat_gt (abs v.num)
    have h2 := abs_le.1 (le_refl (abs v.num))
    have h3 : (0 : Rat) < n := lt_of_le_of_lt (abs_nonneg _) hn
    refine ⟨n, by exact_mod_cast h3, fun _ => ?_⟩
    push_cast
    constructor <;> linarith
  | _ => exact ⟨1, by omega, trivial⟩

theorem exists_fits (l : List XSelector) (h : ∀ s ∈ l, s.val ≠ .nan) : ∃ B : Int, 0 < B ∧ ∀ s ∈ l, s.Fits B := by
  induction l with
  | nil => exact ⟨1, by omega, by simp⟩
  | cons a l ih =>
    obtain ⟨B, hB, hl⟩ := ih (fun s hs => h s (by simp [hs]))
    obtain ⟨C, hC, ha⟩ := a.val.exists_fits (h a (by simp))
    refine ⟨max B C, by omega, fun s hs => ?_⟩
    rcases List.mem_cons.1 hs with rfl | hs
    · exact XVal.Fits.mono (le_max_right _ _) ha
    · exact XVal.Fits.mono (le_max_left _ _) (hl s hs)

theorem XVal.plain_isStr (B : Int) (v : XVal) : (v.plain B).isStr = v.isStr := by cases v <;> rfl

variable {B : Int}

theorem dec_false {p : Prop} [Decidable p] (h : ¬ p) : false = decide p := (decide_eq_false h).symm
theorem dec_true {p : Prop} [Decidable p] (h : p) : true = decide p := (decide_eq_true h).symm

/-- comparisons of numbers, without `nan` -/
theorem XVal.num_plain (hB : 0 < B) {a b : XVal} (ha : a.Fits B) (hb : b.Fits B) (sa : a.isStr = false) (sb : b.isStr = false) :
    a.eqNum b = decide ((a.plain B).num = (b.plain B).num) ∧ a.ltNum b = decide ((a.plain B).num < (b.plain B).num) := by
  have hB' : (0 : Rat) < B := by exact_mod_cast hB
  have e1 : (XVal.pinf.plain B).num = (B : Rat) := rfl
  have e2 : (XVal.ninf.plain B).num = -(B : Rat) := by show ((-B : Int) : Rat) = _; push_cast; rfl
  have e3 : (XVal.nzero.plain B).num = 0 := rfl
  have e4 : ∀ v, (XVal.val v).plain B = v := fun _ => rfl
  cases a with
  | nan => exact ha.elim
  | val x =>
    obtain ⟨x1, x2⟩ := ha sa
    cases b with
    | nan => exact hb.elim
    | val y => exact ⟨rfl, rfl⟩
    | pinf => rw [e1, e4]; exact ⟨dec_false (by linarith), dec_true (by linarith)⟩
    | ninf => rw [e2, e4]; exact ⟨dec_false (by linarith), dec_false (by linarith)⟩
    | nzero => rw [e3, e4]; exact ⟨rfl, rfl⟩
  | pinf =>
    cases b with
    | nan => exact hb.elim
    | val y =>
      obtain ⟨y1, y2⟩ := hb sb
      rw [e1, e4]; exact ⟨dec_false (by linarith), dec_false (by linarith)⟩
    | pinf => rw [e1]; exact ⟨dec_true rfl, dec_false (by linarith)⟩
    | ninf => rw [e1, e2]; exact ⟨dec_false (by linarith), dec_false (by linarith)⟩
    | nzero => rw [e1, e3]; exact ⟨dec_false (by linarith), dec_false (by linarith)⟩
  | ninf =>
    cases b with
    | nan => exact hb.elim
    | val y =>
      obtain ⟨y1, y2⟩ := hb sb
      rw [e2, e4]; exact ⟨dec_false (by linarith), dec_true (by linarith)⟩
    | pinf => rw [e1, e2]; exact ⟨dec_false (by linarith), dec_true (by linarith)⟩
    | ninf => rw [e2]; exact ⟨dec_true rfl, dec_false (by linarith)⟩
    | nzero => rw [e2, e3]; exact ⟨dec_false (by linarith), dec_true (by linarith)⟩
  | nzero =>
    cases b with
    | nan => exact hb.elim
    | val y =>
      rw [e3, e4]
      refine ⟨?_, rfl⟩
      show (y.num == 0) = _
      by_cases h : y.num = 0
      · rw [h]; rfl
      · rw [← dec_false (fun h' => h h'.symm)]; simpa using h
    | pinf => rw [e1, e3]; exact ⟨dec_false (by linarith), dec_true (by linarith)⟩
    | ninf => rw [e2, e3]; exact ⟨dec_false (by linarith), dec_false (by linarith)⟩
    | nzero => rw [e3]; exact ⟨dec_true rfl, dec_false (by linarith)⟩

/-- the comparisons of an ordinary number -/
theorem Val.num_cmp {a b : Val} (sa : a.isStr = false) (sb : b.isStr = false) :
    a.eq b = decide (a.num = b.num) ∧ a.lt? b = .ok (decide (a.num < b.num)) ∧ a.le? b = .ok (decide (a.num ≤ b.num)) := by
  cases a <;> cases b <;> first | exact ⟨rfl, rfl, rfl⟩ | (exact Bool.noConfusion sa) | (exact Bool.noConfusion sb)

theorem XVal.num_cmp {a b : XVal} (sa : a.isStr = false) (sb : b.isStr = false) :
    a.eq b = a.eqNum b ∧ a.lt? b = .ok (a.ltNum b) ∧ a.le? b = .ok (a.ltNum b || a.eqNum b) := by
  cases a with
  | val v =>
    cases v with
    | str => cases sa
    | _ =>
      cases b with
      | val w => cases w <;> first | exact ⟨rfl, rfl, rfl⟩ | (exact Bool.noConfusion sb)
      | _ => exact ⟨rfl, rfl, rfl⟩
  | _ =>
    cases b with
    | val w => cases w <;> first | exact ⟨rfl, rfl, rfl⟩ | (exact Bool.noConfusion sb)
    | _ => exact ⟨rfl, rfl, rfl⟩

/-- comparisons of values of one kind, without `nan` -/
theorem XVal.cmp_plain (hB : 0 < B) {a b : XVal} (ha : a.Fits B) (hb : b.Fits B) (hs : a.isStr = b.isStr) :
    a.eq b = (a.plain B).eq (b.plain B) ∧ a.lt? b = (a.plain B).lt? (b.plain B) ∧ a.le? b = (a.plain B).le? (b.plain B) := by
  cases h : a.isStr with
  | true =>
    cases a with
    | val v =>
      cases v with
      | str x =>
        rw [h] at hs
        cases b with
        | val w => cases w <;> first | exact ⟨rfl, rfl, rfl⟩ | (exact Bool.noConfusion hs)
        | _ => cases hs
      | _ => cases h
    | _ => cases h
  | false =>
    have sb : b.isStr = false := hs ▸ h
    obtain ⟨h1, h2, h3⟩ := XVal.num_cmp h sb
    obtain ⟨g1, g2, g3⟩ := Val.num_cmp (a := a.plain B) (b := b.plain B) (by rw [XVal.plain_isStr]; exact h) (by rw [XVal.plain_isStr]; exact sb)
    obtain ⟨k1, k2⟩ := XVal.num_plain hB ha hb h sb
    rw [h1, h2, h3, g1, g2, g3, k1, k2]
    refine ⟨rfl, rfl, ?_⟩
    congr 1
    rw [← Bool.decide_or]
    exact decide_eq_decide.2 le_iff_lt_or_eq.symm

/-- text and number are never equal -/
theorem XVal.eq_mixed {a b : XVal} (h : a.isStr ≠ b.isStr) : a.eq b = false := by
  cases a with
  | val v =>
    cases v with
    | str => cases b with
      | val w => cases w <;> first | rfl | (exact absurd rfl h)
      | _ => rfl
    | _ => cases b with
      | val w => cases w <;> first | rfl | (exact absurd rfl h)
      | _ => exact absurd rfl h
  | _ => cases b with
    | val w => cases w <;> first | rfl | (exact absurd rfl h)
    | _ => exact absurd rfl h

theorem Val.eq_mixed {a b : Val} (h : a.isStr ≠ b.isStr) : a.eq b = false := by
  cases a <;> cases b <;> first | rfl | exact absurd rfl h

theorem XVal.eq_plain (hB : 0 < B) {a b : XVal} (ha : a.Fits B) (hb : b.Fits B) : a.eq b = (a.plain B).eq (b.plain B) := by
  by_cases hs : a.isStr = b.isStr
  · exact (XVal.cmp_plain hB ha hb hs).1
  · rw [XVal.eq_mixed hs, Val.eq_mixed (by rw [XVal.plain_isStr, XVal.plain_isStr]; exact hs)]

/-- the selectors of `S` with the same column and operator have values of one kind -/
def Spec.XHomogeneous (S : XSelector → Prop) : Prop := ∀ a b, S a → S b → a.attr = b.attr → a.op = b.op → a.val.isStr = b.val.isStr

namespace XSelector
theorem eq_plain (hB : 0 < B) {a b : XSelector} (ha : a.Fits B) (hb : b.Fits B) : a.eq b = (a.plain B).eq (b.plain B) := by
  unfold XSelector.eq Selector.eq
  rw [XVal.eq_plain hB ha hb]; rfl

theorem ne_plain (hB : 0 < B) {a b : XSelector} (ha : a.Fits B) (hb : b.Fits B) : a.ne b = (a.plain B).ne (b.plain B) := by
  unfold XSelector.ne Selector.ne
  rw [XVal.eq_plain hB ha hb]; rfl

theorem opEq {a b : Op} (h : a.ne b = false) : a = b := by
  revert h; cases a <;> cases b <;> decide

theorem cmp_plain (hB : 0 < B) {a b : XSelector} (ha : a.Fits B) (hb : b.Fits B) (hs : a.attr = b.attr → a.op = b.op → a.val.isStr = b.val.isStr) :
    a.lt b = (a.plain B).lt (b.plain B) ∧ a.gt b = (a.plain B).gt (b.plain B) ∧ a.le b = (a.plain B).le (b.plain B) ∧ a.ge b = (a.plain B).ge (b.plain B) := by
  unfold XSelector.lt Selector.lt XSelector.gt Selector.gt XSelector.le Selector.le XSelector.ge Selector.ge
  have e := XVal.eq_plain hB ha hb
  by_cases h1 : a.attr = b.attr
  · cases h2 : a.op.ne b.op with
    | false =>
      have h3 := hs h1 (opEq h2)
      obtain ⟨_, k2, k3⟩ := XVal.cmp_plain hB ha hb h3
      obtain ⟨_, l2, l3⟩ := XVal.cmp_plain hB hb ha h3.symm
      have s1 : (a.val.plain B).isStr = (b.val.plain B).isStr := by rw [XVal.plain_isStr, XVal.plain_isStr]; exact h3
      have nt : ∀ x y : Val, x.isStr = y.isStr → (∃ r, x.lt? y = .ok r) ∧ ∃ r, x.le? y = .ok r := by
        intro x y; cases x <;> cases y <;> intro h <;> first | exact ⟨⟨_, rfl⟩, _, rfl⟩ | (exact Bool.noConfusion h)
      obtain ⟨⟨r1, n1⟩, r2, n2⟩ := nt _ _ s1
      obtain ⟨⟨r3, n3⟩, r4, n4⟩ := nt _ _ s1.symm
      simp only [XSelector.plain, h1, h2, e, k2, k3, l2, l3, n1, n2, n3, n4, ne_eq, not_true_eq_false, if_false]
      simp
    | true => simp [XSelector.plain, h1, h2]
  · simp [XSelector.plain, h1]

end XSelector

/-! ### pattern operations -/

section transfer
variable {α β : Type} {r : α → β} {lt : α → α → Bool} {lt' : β → β → Bool}

theorem bisectLoop_congr {p q : Nat → Bool} (hi : Nat) : ∀ (n lo : Nat), hi - lo = n → (∀ i, lo ≤ i → i < hi → p i = q i) → bisectLoop p lo hi = bisectLoop q lo hi := by
  intro n
  induction n using Nat.strongRecOn generalizing hi with
  | _ n ih =>
    intro lo hn h
    rw [bisectLoop, bisectLoop]
    by_cases hlt : lo < hi
    · rw [dif_pos hlt, dif_pos hlt]
      simp only
      rw [h ((lo + hi) / 2) (by omega) (by omega)]
      split
      · exact ih (hi - ((lo + hi) / 2 + 1)) (by omega) hi _ rfl (fun i h1 h2 => h i (by omega) h2)
      · exact ih ((lo + hi) / 2 - lo) (by omega) _ _ rfl (fun i h1 h2 => h i h1 (by omega))
    · rw [dif_neg hlt, dif_neg hlt]

theorem bisectLeft_map {l : List α} {x : α} (h : ∀ y ∈ l, lt y x = lt' (r y) (r x)) : bisectLeft lt' (l.map r) (r x) = bisectLeft lt l x := by
  unfold bisectLeft
  rw [List.length_map]
  refine bisectLoop_congr _ _ _ rfl (fun i _ hi => ?_)
  rw [List.getElem?_map, List.getElem?_eq_getElem hi]
  exact (h _ (List.getElem_mem hi)).symm

theorem insertIdx_map (l : List α) (i : Nat) (x : α) : (l.insertIdx i x).map r = (l.map r).insertIdx i (r x) := by
  induction l generalizing i with
  | nil => cases i <;> simp
  | cons a l ih => cases i <;> simp [ih]

theorem binaryInsert_map {l : List α} {x : α} (h : ∀ y ∈ l, lt x y = lt' (r x) (r y)) : binaryInsert lt' (l.map r) (r x) = (binaryInsert lt l x).map r := by
  unfold binaryInsert
  rw [List.length_map, insertIdx_map]
  congr 1
  refine bisectLoop_congr _ _ _ rfl (fun i _ hi => ?_)
  rw [List.getElem?_map, List.getElem?_eq_getElem hi]
  show (!lt' (r x) (r l[i])) = !lt x l[i]
  rw [h _ (List.getElem_mem hi)]

theorem mem_binaryInsert {l : List α} {x y : α} (h : y ∈ binaryInsert lt l x) : y = x ∨ y ∈ l := by
  unfold binaryInsert at h
  exact List.eq_or_mem_of_mem_insertIdx h

theorem takeRun_map {S : α → Prop} (hS : ∀ a b, S a → S b → lt a b = lt' (r a) (r b)) (down : Bool) (prev : α) (l : List α) (hp : S prev) (hl : ∀ a ∈ l, S a) :
    takeRun lt' down (r prev) (l.map r) = ((takeRun lt down prev l).1.map r, (takeRun lt down prev l).2.map r) := by
  induction l generalizing prev with
  | nil => rfl
  | cons x l ih =>
    rw [List.map_cons]
    unfold takeRun
    rw [hS x prev (hl x (by simp)) hp, ih x (hl x (by simp)) (fun a ha => hl a (by simp [ha]))]
    split <;> simp

theorem countRun_map {S : α → Prop} (hS : ∀ a b, S a → S b → lt a b = lt' (r a) (r b)) (l : List α) (hl : ∀ a ∈ l, S a) :
    countRun lt' (l.map r) = ((countRun lt l).1.map r, (countRun lt l).2.map r) := by
  match l with
  | [] => rfl
  | [a] => rfl
  | a :: b :: l =>
    have h := fun down => takeRun_map hS down a (b :: l) (hl a (by simp)) (fun x hx => hl x (by simp at hx ⊢; tauto))
    simp only [List.map_cons] at h ⊢
    simp only [countRun]
    rw [hS b a (hl b (by simp)) (hl a (by simp)), h, h]
    split <;> simp

theorem pySort_map {S : α → Prop} (hS : ∀ a b, S a → S b → lt a b = lt' (r a) (r b)) (l : List α) (hl : ∀ a ∈ l, S a) :
    pySort lt' (l.map r) = (pySort lt l).map r ∧ ∀ a ∈ pySort lt l, S a := by
  unfold pySort
  have : ∀ (l acc : List α), (∀ a ∈ l, S a) → (∀ a ∈ acc, S a) →
      (l.map r).foldl (binaryInsert lt') (acc.map r) = (l.foldl (binaryInsert lt) acc).map r ∧ ∀ a ∈ l.foldl (binaryInsert lt) acc, S a := by
    intro l
    induction l with
    | nil => intro acc _ h; exact ⟨rfl, h⟩
    | cons x l ih =>
      intro acc h1 h2
      simp only [List.map_cons, List.foldl_cons]
      rw [binaryInsert_map (fun y hy => hS x y (h1 x (by simp)) (h2 y hy))]
      refine ih _ (fun a ha => h1 a (by simp [ha])) (fun a ha => ?_)
      rcases mem_binaryInsert ha with rfl | ha
      · exact h1 _ (by simp)
      · exact h2 a ha
  have hm : ∀ a, a ∈ (countRun lt l).1 ++ (countRun lt l).2 → S a := fun a ha => hl a ((countRun_perm lt l).mem_iff.1 ha)
  rw [countRun_map hS l hl]
  exact this _ _ (fun a ha => hm a (by simp [ha])) (fun a ha => hm a (by simp [ha]))

end transfer

/-- the selectors that fit between `-B` and `B`, of one kind per column and operator -/
structure Tame (B : Int) (S : XSelector → Prop) : Prop where
  pos : 0 < B
  fits : ∀ s, S s → s.Fits B
  homog : XHomogeneous S

namespace Tame
variable {S : XSelector → Prop}

theorem eq (h : Tame B S) {a b : XSelector} (ha : S a) (hb : S b) : a.eq b = (a.plain B).eq (b.plain B) := XSelector.eq_plain h.pos (h.fits _ ha) (h.fits _ hb)
theorem ne (h : Tame B S) {a b : XSelector} (ha : S a) (hb : S b) : a.ne b = (a.plain B).ne (b.plain B) := XSelector.ne_plain h.pos (h.fits _ ha) (h.fits _ hb)
theorem cmp (h : Tame B S) {a b : XSelector} (ha : S a) (hb : S b) :
    a.lt b = (a.plain B).lt (b.plain B) ∧ a.gt b = (a.plain B).gt (b.plain B) ∧ a.le b = (a.plain B).le (b.plain B) ∧ a.ge b = (a.plain B).ge (b.plain B) :=
  XSelector.cmp_plain h.pos (h.fits _ ha) (h.fits _ hb) (h.homog a b ha hb)

/-- the ordinary selectors that stand for those of `S` -/
def image (B : Int) (S : XSelector → Prop) (t : Selector) : Prop := ∃ s, S s ∧ t = s.plain B

theorem image_homogeneous (h : Tame B S) : Homogeneous (image B S) := by
  rintro _ _ ⟨a, ha, rfl⟩ ⟨b, hb, rfl⟩ h1 h2
  show (a.val.plain B).isStr = (b.val.plain B).isStr
  rw [XVal.plain_isStr, XVal.plain_isStr]
  exact h.homog a b ha hb h1 h2

theorem dedup (h : Tame B S) : ∀ (l acc : List XSelector), (∀ s ∈ l, S s) → (∀ s ∈ acc, S s) →
    Pattern.dedupLoop (acc.map (·.plain B)) (l.map (·.plain B)) = (XPattern.dedupLoop acc l).map (·.plain B) ∧ ∀ s ∈ XPattern.dedupLoop acc l, S s := by
  intro l
  induction l with
  | nil =>
    intro acc _ h2
    cases acc with
    | nil => exact ⟨rfl, by simp [XPattern.dedupLoop]⟩
    | cons a acc =>
      refine ⟨?_, ?_⟩
      · show (List.map _ (a :: acc)).reverse = _
        rw [← List.map_reverse]; rfl
      · intro s hs
        have : s ∈ (a :: acc).reverse := hs
        exact h2 s (List.mem_reverse.1 this)
  | cons x l ih =>
    intro acc h1 h2
    have hx := h1 x (by simp)
    have hl : ∀ s ∈ l, S s := fun s hs => h1 s (by simp [hs])
    cases acc with
    | nil => exact ih [x] hl (by simpa using hx)
    | cons y ys =>
      simp only [List.map_cons, Pattern.dedupLoop, XPattern.dedupLoop]
      rw [← h.ne (h2 y (by simp)) hx]
      split
      · exact ih (x :: y :: ys) hl (by
          intro s hs
          rcases List.mem_cons.1 hs with rfl | hs
          · exact hx
          · exact h2 s hs)
      · exact ih (y :: ys) hl h2

theorem new (h : Tame B S) (l : List XSelector) (hl : ∀ s ∈ l, S s) :
    Pattern.new (l.map (·.plain B)) = ⟨(XPattern.new l).sels.map (·.plain B)⟩ ∧ ∀ s ∈ (XPattern.new l).sels, S s := by
  obtain ⟨h1, h2⟩ := pySort_map (r := fun s : XSelector => s.plain B) (lt' := Selector.lt) (fun a b ha hb => (h.cmp ha hb).1) l hl
  obtain ⟨h3, h4⟩ := h.dedup (pySort XSelector.lt l) [] h2 (by simp)
  refine ⟨?_, h4⟩
  unfold Pattern.new XPattern.new
  rw [h1]
  exact congrArg Pattern.mk h3

theorem index (h : Tame B S) {p : XPattern} (hp : ∀ s ∈ p.sels, S s) {x : XSelector} (hx : S x) :
    Pattern.index ⟨p.sels.map (·.plain B)⟩ (x.plain B) = p.index x := bisectLeft_map (fun y hy => (h.cmp (hp y hy) hx).1)

theorem add (h : Tame B S) {p : XPattern} (hp : ∀ s ∈ p.sels, S s) {x : XSelector} (hx : S x) :
    Pattern.add ⟨p.sels.map (·.plain B)⟩ (x.plain B) = ⟨(p.add x).sels.map (·.plain B)⟩ ∧ ∀ s ∈ (p.add x).sels, S s := by
  unfold Pattern.add XPattern.add
  simp only [h.index hp hx, List.length_map, List.getElem?_map]
  by_cases hi : p.index x = p.sels.length
  · simp only [if_pos hi]
    refine ⟨by simp, fun s hs => ?_⟩
    rcases List.mem_append.1 hs with hs | hs
    · exact hp s hs
    · rw [List.mem_singleton.1 hs]; exact hx
  · simp only [if_neg hi]
    cases hg : p.sels[p.index x]? with
    | none => exact ⟨rfl, hp⟩
    | some t =>
      have ht := hp t (List.mem_of_getElem? hg)
      simp only [Option.map_some]
      rw [← h.ne ht hx]
      split
      · refine ⟨by rw [insertIdx_map], fun s hs => ?_⟩
        rcases List.eq_or_mem_of_mem_insertIdx hs with rfl | hs
        · exact hx
        · exact hp s hs
      · exact ⟨rfl, hp⟩

theorem remove (h : Tame B S) {p : XPattern} (hp : ∀ s ∈ p.sels, S s) {x : XSelector} (hx : S x) :
    Pattern.remove ⟨p.sels.map (·.plain B)⟩ (x.plain B) = ⟨(p.remove x).sels.map (·.plain B)⟩ ∧ ∀ s ∈ (p.remove x).sels, S s := by
  unfold Pattern.remove XPattern.remove
  simp only [h.index hp hx, List.getElem?_map]
  cases hg : p.sels[p.index x]? with
  | none => exact ⟨rfl, hp⟩
  | some t =>
    have ht := hp t (List.mem_of_getElem? hg)
    simp only [Option.map_some]
    rw [← h.eq ht hx]
    split
    · refine ⟨by rw [List.eraseIdx_map], fun s hs => hp s (List.mem_of_mem_eraseIdx hs)⟩
    · exact ⟨rfl, hp⟩

theorem contains (h : Tame B S) {p : XPattern} (hp : ∀ s ∈ p.sels, S s) {x : XSelector} (hx : S x) :
    Pattern.contains ⟨p.sels.map (·.plain B)⟩ (x.plain B) = p.contains x := by
  unfold Pattern.contains XPattern.contains
  simp only [h.index hp hx, List.length_map, List.getElem?_map]
  split
  · rfl
  · cases hg : p.sels[p.index x]? with
    | none => rfl
    | some t => exact (h.eq (hp t (List.mem_of_getElem? hg)) hx).symm

theorem eqLoop (h : Tame B S) : ∀ (l l' : List XSelector), (∀ s ∈ l, S s) → (∀ s ∈ l', S s) →
    Pattern.eqLoop (l.map (·.plain B)) (l'.map (·.plain B)) = XPattern.eqLoop l l' := by
  intro l
  induction l with
  | nil => intro l' _ _; rfl
  | cons a l ih =>
    intro l' h1 h2
    cases l' with
    | nil => rfl
    | cons b l' =>
      simp only [List.map_cons, Pattern.eqLoop, XPattern.eqLoop]
      rw [← h.ne (h1 a (by simp)) (h2 b (by simp)), ih l' (fun s hs => h1 s (by simp [hs])) (fun s hs => h2 s (by simp [hs]))]

theorem patEq (h : Tame B S) {p q : XPattern} (hp : ∀ s ∈ p.sels, S s) (hq : ∀ s ∈ q.sels, S s) :
    Pattern.eq ⟨p.sels.map (·.plain B)⟩ ⟨q.sels.map (·.plain B)⟩ = p.eq q ∧ Pattern.ne ⟨p.sels.map (·.plain B)⟩ ⟨q.sels.map (·.plain B)⟩ = p.ne q := by
  unfold Pattern.eq Pattern.ne XPattern.eq XPattern.ne
  simp only [List.length_map, h.eqLoop _ _ hp hq, and_self]

end Tame
end Verif

import Verif.Lemmas.SpecialFloats
import Verif.Props.Exact
import Mathlib.Order.WithBot
/-! Property C89: selectors and patterns with the float values `nan`, `inf`, `-inf` and `-0.0`. -/
namespace Verif
open Spec

/-! ### the model without special values is the one of C01 - C08 -/

/-- an ordinary selector -/
def Selector.up (s : Selector) : XSelector := ⟨s.attr, s.op, .val s.val⟩

theorem up_cmp (v w : Val) : (XVal.val v).eq (.val w) = v.eq w ∧ (XVal.val v).lt? (.val w) = v.lt? w ∧ (XVal.val v).le? (.val w) = v.le? w := by
  have hle : ∀ x y : Rat, (decide (x < y) || x == y) = decide (x ≤ y) := by
    intro x y
    rw [Bool.eq_iff_iff]
    simp [le_iff_lt_or_eq]
  refine ⟨by cases v <;> cases w <;> rfl, by cases v <;> cases w <;> rfl, ?_⟩
  cases v <;> cases w <;> first | rfl | exact congrArg Except.ok (hle _ _)

/-- C89: on selectors with ordinary values, all the methods are those of C01 - C05, so that those properties hold of them. -/
theorem C89_ordinary (a b : Selector) (v : Val) :
    a.up.eq b.up = a.eq b ∧ a.up.ne b.up = a.ne b ∧ a.up.lt b.up = a.lt b ∧ a.up.gt b.up = a.gt b ∧ a.up.le b.up = a.le b ∧ a.up.ge b.up = a.ge b ∧
    a.up.str = a.str ∧ XSelector.legal a.op (.val a.val) = Selector.legal a.op a.val ∧ a.op.evaluateX (.val v) (.val a.val) = a.op.evaluate v a.val := by
  obtain ⟨h1, h2, h3⟩ := up_cmp a.val b.val
  obtain ⟨_, h5, h6⟩ := up_cmp b.val a.val
  obtain ⟨k1, k2, k3⟩ := up_cmp v a.val
  obtain ⟨_, k5, k6⟩ := up_cmp a.val v
  refine ⟨?_, ?_, ?_, ?_, ?_, ?_, rfl, rfl, ?_⟩
  · simp only [XSelector.eq, Selector.eq, Selector.up, h1]
  · simp only [XSelector.ne, Selector.ne, Selector.up, h1]
  · simp only [XSelector.lt, Selector.lt, Selector.up, h1, h2]; rfl
  · simp only [XSelector.gt, Selector.gt, Selector.up, h1, h5]; rfl
  · simp only [XSelector.le, Selector.le, Selector.up, h1, h3]; rfl
  · simp only [XSelector.ge, Selector.ge, Selector.up, h1, h6]; rfl
  · cases hop : a.op <;> simp only [Op.evaluateX, Op.evaluate, k1, k2, k3, k5, k6]

/-! ### evaluation -/

/-- the number a value stands for, with infinities (not for `nan`) -/
def Spec.ext : XVal → WithBot (WithTop Rat)
  | .val v => ((v.num : WithTop Rat) : WithBot (WithTop Rat))
  | .pinf => ((⊤ : WithTop Rat) : WithBot (WithTop Rat))
  | .ninf => ⊥
  | .nzero => (((0 : Rat) : WithTop Rat) : WithBot (WithTop Rat))
  | .nan => ⊥

theorem lt_ext_top (q : Rat) : ((q : WithTop Rat) : WithBot (WithTop Rat)) < ⊤ := WithBot.coe_lt_coe.2 (WithTop.coe_lt_top q)

theorem ext_num {a b : XVal} (ha : a ≠ .nan) (hb : b ≠ .nan) : (a.eqNum b = true ↔ ext a = ext b) ∧ (a.ltNum b = true ↔ ext a < ext b) := by
  cases a <;> cases b <;> first | (exact absurd rfl ha) | (exact absurd rfl hb) | skip
  all_goals simp [XVal.eqNum, XVal.ltNum, ext]
  all_goals first
    | exact eq_comm
    | exact lt_ext_top _
    | exact (lt_ext_top 0).ne'
    | exact ⟨(lt_ext_top 0).ne, lt_ext_top 0⟩

/-- C89: the six operators on two numbers. With `nan` on a side only `!=` holds; otherwise the comparison is that of the numbers, with -inf and inf below and above all of them and -0.0 equal to 0. -/
theorem C89_evaluate (op : Op) (l r : XVal) (hl : l.isStr = false) (hr : r.isStr = false) :
    ∃ b, op.evaluateX l r = .ok b ∧ ((l = .nan ∨ r = .nan) → (b = true ↔ op = .notEqual)) ∧ (l ≠ .nan → r ≠ .nan → (b = true ↔ opMeaning op (ext l) (ext r))) := by
  obtain ⟨h1, h2, h3⟩ := XVal.num_cmp hl hr
  obtain ⟨_, g2, g3⟩ := XVal.num_cmp hr hl
  have hn : ∀ x y : XVal, (x = .nan ∨ y = .nan) → x.eqNum y = false ∧ x.ltNum y = false := by
    rintro x y (rfl | rfl)
    · exact ⟨rfl, rfl⟩
    · cases x <;> exact ⟨rfl, rfl⟩
  have hc : l ≠ .nan → r ≠ .nan → ((l.ltNum r || l.eqNum r) = true ↔ ext l ≤ ext r) := fun a b => by
    rw [Bool.or_eq_true, (ext_num a b).1, (ext_num a b).2, le_iff_lt_or_eq]
  have hd : l ≠ .nan → r ≠ .nan → ((r.ltNum l || r.eqNum l) = true ↔ ext r ≤ ext l) := fun a b => by
    rw [Bool.or_eq_true, (ext_num b a).1, (ext_num b a).2, le_iff_lt_or_eq]
  cases op with
  | equal => exact ⟨l.eqNum r, by simp only [Op.evaluateX, h1], fun h => by simp [(hn _ _ h).1], fun a b => (ext_num a b).1⟩
  | notEqual =>
    refine ⟨!l.eqNum r, by simp only [Op.evaluateX, h1], fun h => by simp [(hn _ _ h).1], fun a b => ?_⟩
    rw [Bool.not_eq_true', ← Bool.not_eq_true, (ext_num a b).1]; rfl
  | less => exact ⟨_, h2, fun h => by simp [(hn _ _ h).2], fun a b => (ext_num a b).2⟩
  | greater => exact ⟨_, g2, fun h => by simp [(hn _ _ h.symm).2], fun a b => (ext_num b a).2⟩
  | lessOrEqual => exact ⟨_, h3, fun h => by simp [(hn _ _ h).2, (hn _ _ h).1], hc⟩
  | greaterOrEqual => exact ⟨_, g3, fun h => by simp [(hn _ _ h.symm).2, (hn _ _ h.symm).1], hd⟩

/-- C89: a selector on a column of numbers, some of them special: the answer has one entry per row, that of `C89_evaluate`. In particular a row whose cell is `nan` is covered by `!=` only. -/
theorem C89_series (s : XSelector) (col : List XVal) (hs : s.val.isStr = false) (hc : ∀ v ∈ col, v.isStr = false) :
    ∃ m, s.matchSeries col = .ok m ∧ m.length = col.length ∧ ∀ (i : Nat) (v : XVal) (b : Bool), col[i]? = some v → m[i]? = some b →
      ((v = .nan ∨ s.val = .nan) → (b = true ↔ s.op = .notEqual)) ∧ (v ≠ .nan → s.val ≠ .nan → (b = true ↔ opMeaning s.op (ext v) (ext s.val))) := by
  unfold XSelector.matchSeries
  induction col with
  | nil => exact ⟨[], rfl, rfl, fun i v b h => by simp at h⟩
  | cons v col ih =>
    obtain ⟨m, h1, h2, h3⟩ := ih (fun v hv => hc v (by simp [hv]))
    obtain ⟨b, e1, e2, e3⟩ := C89_evaluate s.op v s.val (hc v (by simp)) hs
    refine ⟨b :: m, ?_, by simp [h2], ?_⟩
    · rw [List.mapM_cons, e1, h1]; rfl
    · intro i w c hw hb
      cases i with
      | zero => simp at hw hb; subst hw hb; exact ⟨e2, e3⟩
      | succ i => exact h3 i w c (by simpa using hw) (by simpa using hb)

/-- non-vacuity -/
example : (⟨c!"a", .lessOrEqual, .nzero⟩ : XSelector).matchSeries [.nan, .ninf, .val (.int 0), .pinf] = .ok [false, true, true, false] := by decide +kernel

/-! ### the order -/

/-- C89: without `nan`, and with values of one kind per column and operator, the six comparison methods are one total order, also with infinities and -0.0. -/
theorem C89_order (S : XSelector → Prop) (hS : XHomogeneous S) (hn : ∀ s, S s → s.val ≠ .nan) :
    TotalOrder S XSelector.eq XSelector.ne XSelector.lt XSelector.gt XSelector.le XSelector.ge := by
  have tame : ∀ l : List XSelector, (∀ s ∈ l, S s) → ∃ B, Tame B (· ∈ l) := by
    intro l hl
    obtain ⟨B, hB, hf⟩ := exists_fits l (fun s hs => hn s (hl s hs))
    exact ⟨B, hB, hf, fun a b ha hb => hS a b (hl a ha) (hl b hb)⟩
  have base : ∀ {B : Int} {l : List XSelector} (h : Tame B (· ∈ l)), TotalOrder (Tame.image B (· ∈ l)) Selector.eq Selector.ne Selector.lt Selector.gt Selector.le Selector.ge :=
    fun h => C04_homogeneous _ h.image_homogeneous
  have im : ∀ {B : Int} {l : List XSelector} {s : XSelector}, s ∈ l → Tame.image B (· ∈ l) (s.plain B) := fun h => ⟨_, h, rfl⟩
  constructor
  · intro a ha
    obtain ⟨B, h⟩ := tame [a] (by simpa using ha)
    have ma : a ∈ [a] := by simp
    rw [h.eq ma ma]; exact (base h).eq_refl _ (im ma)
  · intro a b ha hb
    obtain ⟨B, h⟩ := tame [a, b] (by simp [ha, hb])
    have ma : a ∈ [a, b] := by simp
    have mb : b ∈ [a, b] := by simp
    rw [h.eq ma mb, h.eq mb ma]; exact (base h).eq_symm _ _ (im ma) (im mb)
  · intro a b c ha hb hc
    obtain ⟨B, h⟩ := tame [a, b, c] (by simp [ha, hb, hc])
    have ma : a ∈ [a, b, c] := by simp
    have mb : b ∈ [a, b, c] := by simp
    have mc : c ∈ [a, b, c] := by simp
    rw [h.eq ma mb, h.eq mb mc, h.eq ma mc]; exact (base h).eq_trans _ _ _ (im ma) (im mb) (im mc)
  · intro a b ha hb
    obtain ⟨B, h⟩ := tame [a, b] (by simp [ha, hb])
    have ma : a ∈ [a, b] := by simp
    have mb : b ∈ [a, b] := by simp
    rw [h.eq ma mb, h.ne ma mb]; exact (base h).ne_iff _ _ (im ma) (im mb)
  · intro a ha
    obtain ⟨B, h⟩ := tame [a] (by simpa using ha)
    have ma : a ∈ [a] := by simp
    rw [(h.cmp ma ma).1]; exact (base h).lt_irrefl _ (im ma)
  · intro a b c ha hb hc
    obtain ⟨B, h⟩ := tame [a, b, c] (by simp [ha, hb, hc])
    have ma : a ∈ [a, b, c] := by simp
    have mb : b ∈ [a, b, c] := by simp
    have mc : c ∈ [a, b, c] := by simp
    rw [(h.cmp ma mb).1, (h.cmp mb mc).1, (h.cmp ma mc).1]; exact (base h).lt_trans _ _ _ (im ma) (im mb) (im mc)
  · intro a a' b b' ha ha' hb hb'
    obtain ⟨B, h⟩ := tame [a, a', b, b'] (by simp [ha, hb, ha', hb'])
    have ma : a ∈ [a, a', b, b'] := by simp
    have ma' : a' ∈ [a, a', b, b'] := by simp
    have mb : b ∈ [a, a', b, b'] := by simp
    have mb' : b' ∈ [a, a', b, b'] := by simp
    rw [h.eq ma ma', h.eq mb mb', (h.cmp ma mb).1, (h.cmp ma' mb').1]; exact (base h).lt_congr _ _ _ _ (im ma) (im ma') (im mb) (im mb')
  · intro a b ha hb
    obtain ⟨B, h⟩ := tame [a, b] (by simp [ha, hb])
    have ma : a ∈ [a, b] := by simp
    have mb : b ∈ [a, b] := by simp
    rw [h.eq ma mb, (h.cmp ma mb).1, (h.cmp ma mb).2.1]; exact (base h).trichotomy _ _ (im ma) (im mb)
  · intro a b ha hb
    obtain ⟨B, h⟩ := tame [a, b] (by simp [ha, hb])
    have ma : a ∈ [a, b] := by simp
    have mb : b ∈ [a, b] := by simp
    rw [(h.cmp mb ma).1, (h.cmp ma mb).2.1]; exact (base h).gt_iff _ _ (im ma) (im mb)
  · intro a b ha hb
    obtain ⟨B, h⟩ := tame [a, b] (by simp [ha, hb])
    have ma : a ∈ [a, b] := by simp
    have mb : b ∈ [a, b] := by simp
    rw [(h.cmp ma mb).2.1, (h.cmp ma mb).2.2.1]; exact (base h).le_iff _ _ (im ma) (im mb)
  · intro a b ha hb
    obtain ⟨B, h⟩ := tame [a, b] (by simp [ha, hb])
    have ma : a ∈ [a, b] := by simp
    have mb : b ∈ [a, b] := by simp
    rw [(h.cmp ma mb).1, (h.cmp ma mb).2.2.2]; exact (base h).ge_iff _ _ (im ma) (im mb)

/-- the selectors that can be built when column `a` may be compared by `op` with a text (`T a op true`), with a number (`T a op false`), and with `nan` if moreover `N a op` -/
def Spec.XTyped (T : Str → Op → Bool → Prop) (N : Str → Op → Prop) (s : XSelector) : Prop :=
  XSelector.legal s.op s.val = true ∧ T s.attr s.op s.val.isStr ∧ (s.val = .nan → N s.attr s.op)

/-- **C89.** For every typing of columns: the comparison methods are one total order on the selectors over these columns exactly when no column is compared both with texts and with numbers by
the same operator, and none with `nan`. -/
theorem C89_order_exact (T : Str → Op → Bool → Prop) (N : Str → Op → Prop) :
    TotalOrder (XTyped T N) XSelector.eq XSelector.ne XSelector.lt XSelector.gt XSelector.le XSelector.ge ↔ OneKind T ∧ ∀ a op, ¬ (T a op false ∧ N a op) := by
  constructor
  · intro h
    constructor
    · rw [← C04_exact]
      have up : ∀ s, Typed T s → XTyped T N s.up := fun s hs => ⟨hs.1, hs.2, fun h => by cases h⟩
      have e := fun a b : Selector => C89_ordinary a b (.int 0)
      constructor
      · intro a ha; rw [← (e a a).1]; exact h.eq_refl _ (up a ha)
      · intro a b ha hb; rw [← (e a b).1, ← (e b a).1]; exact h.eq_symm _ _ (up a ha) (up b hb)
      · intro a b c ha hb hc; rw [← (e a b).1, ← (e b c).1, ← (e a c).1]; exact h.eq_trans _ _ _ (up a ha) (up b hb) (up c hc)
      · intro a b ha hb; rw [← (e a b).1, ← (e a b).2.1]; exact h.ne_iff _ _ (up a ha) (up b hb)
      · intro a ha; rw [← (e a a).2.2.1]; exact h.lt_irrefl _ (up a ha)
      · intro a b c ha hb hc; rw [← (e a b).2.2.1, ← (e b c).2.2.1, ← (e a c).2.2.1]; exact h.lt_trans _ _ _ (up a ha) (up b hb) (up c hc)
      · intro a a' b b' ha ha' hb hb'
        rw [← (e a a').1, ← (e b b').1, ← (e a b).2.2.1, ← (e a' b').2.2.1]; exact h.lt_congr _ _ _ _ (up a ha) (up a' ha') (up b hb) (up b' hb')
      · intro a b ha hb; rw [← (e a b).1, ← (e a b).2.2.1, ← (e a b).2.2.2.1]; exact h.trichotomy _ _ (up a ha) (up b hb)
      · intro a b ha hb; rw [← (e b a).2.2.1, ← (e a b).2.2.2.1]; exact h.gt_iff _ _ (up a ha) (up b hb)
      · intro a b ha hb; rw [← (e a b).2.2.2.1, ← (e a b).2.2.2.2.1]; exact h.le_iff _ _ (up a ha) (up b hb)
      · intro a b ha hb; rw [← (e a b).2.2.1, ← (e a b).2.2.2.2.2.1]; exact h.ge_iff _ _ (up a ha) (up b hb)
    · rintro a op ⟨h1, h2⟩
      have := h.eq_refl ⟨a, op, .nan⟩ ⟨rfl, h1, fun _ => h2⟩
      simp [XSelector.eq, XVal.eq, XVal.eqNum] at this
  · rintro ⟨h1, h2⟩
    refine C89_order _ ?_ ?_
    · rintro ⟨a, o, v⟩ ⟨a', o', w⟩ ⟨l1, t1, _⟩ ⟨l2, t2, _⟩ ha ho
      simp only at ha ho l1 t1 l2 t2 ⊢
      subst ha ho
      by_contra hne
      have hop : o = .equal ∨ o = .notEqual := by
        cases hv : v.isStr with
        | true => cases o <;> simp_all [XSelector.legal]
        | false =>
          have hw : w.isStr = true := by
            cases hw : w.isStr with
            | true => rfl
            | false => rw [hv, hw] at hne; exact absurd rfl hne
          cases o <;> simp_all [XSelector.legal]
      cases hv : v.isStr <;> cases hw : w.isStr <;> rw [hv, hw] at hne <;> first | (exact absurd rfl hne) | skip
      · rw [hv] at t1; rw [hw] at t2; exact h1 a o hop ⟨t2, t1⟩
      · rw [hv] at t1; rw [hw] at t2; exact h1 a o hop ⟨t1, t2⟩
    · rintro ⟨a, o, v⟩ ⟨_, t, n⟩ (rfl : v = .nan)
      exact h2 a o ⟨t, n rfl⟩

/-! ### `nan` -/

theorem XVal.eq_nan (v : XVal) : v.eq .nan = false ∧ XVal.nan.eq v = false := by
  cases v with
  | val w => cases w <;> exact ⟨rfl, rfl⟩
  | _ => exact ⟨rfl, rfl⟩

/-- C89: a selector with the value `nan` is different from every selector, itself included, and it is neither `<` nor `>`, `<=`, `>=` any selector with the same column and operator and a number -
not even itself. -/
theorem C89_nan (s t : XSelector) (hs : s.val = .nan) :
    s.eq t = false ∧ t.eq s = false ∧ s.ne t = true ∧ t.ne s = true ∧
    (t.attr = s.attr → t.op = s.op → t.val.isStr = false → s.lt t = false ∧ s.gt t = false ∧ s.le t = false ∧ s.ge t = false) := by
  have h1 := (XVal.eq_nan t.val).1
  have h2 := (XVal.eq_nan t.val).2
  refine ⟨by simp [XSelector.eq, hs, h2], by simp [XSelector.eq, hs, h1], by simp [XSelector.ne, hs, h2], by simp [XSelector.ne, hs, h1], ?_⟩
  intro ha ho ht
  obtain ⟨_, k2, k3⟩ := XVal.num_cmp (a := .nan) (b := t.val) rfl ht
  obtain ⟨_, l2, l3⟩ := XVal.num_cmp (a := t.val) (b := .nan) ht rfl
  have n1 : XVal.nan.ltNum t.val = false := rfl
  have n2 : XVal.nan.eqNum t.val = false := rfl
  have n3 : t.val.ltNum .nan = false := by cases t.val <;> rfl
  have n4 : t.val.eqNum .nan = false := by cases t.val <;> rfl
  have ne : s.op.ne t.op = false := by rw [ho]; cases s.op <;> rfl
  refine ⟨?_, ?_, ?_, ?_⟩
  · simp [XSelector.lt, ha, ne, hs, h2, k2, n1]
  · simp [XSelector.gt, ha, ne, hs, h2, l2, n3]
  · simp [XSelector.le, ha, ne, hs, h2, k3, n1, n2]
  · simp [XSelector.ge, ha, ne, hs, h2, l3, n3, n4]

theorem ne_self (s : XSelector) : s.ne s = true ↔ s.val = .nan := by
  have ho : s.op.ne s.op = false := by cases s.op <;> rfl
  have : s.ne s = !(s.val.eq s.val) := by simp [XSelector.ne, ho]
  rw [this]
  cases s.val with
  | val v => cases v <;> simp [XVal.eq, XVal.eqNum]
  | _ => simp [XVal.eq, XVal.eqNum]

theorem eqLoop_self (l : List XSelector) : XPattern.eqLoop l l = true ↔ ∀ s ∈ l, s.val ≠ .nan := by
  induction l with
  | nil => simp [XPattern.eqLoop]
  | cons a l ih =>
    simp only [XPattern.eqLoop]
    by_cases h : a.ne a = true
    · rw [if_pos h]; simp [(ne_self a).1 h]
    · rw [if_neg h, ih]
      have : a.val ≠ .nan := fun h' => h ((ne_self a).2 h')
      simp [this]

theorem dedup_nan : ∀ (l acc : List XSelector), ((XPattern.dedupLoop acc l).filter (·.val == .nan)).length = (acc.filter (·.val == .nan)).length + (l.filter (·.val == .nan)).length := by
  intro l
  induction l with
  | nil =>
    intro acc
    have h : XPattern.dedupLoop acc [] = acc.reverse := by cases acc <;> rfl
    rw [h, List.filter_reverse, List.length_reverse]; rfl
  | cons x l ih =>
    intro acc
    cases acc with
    | nil =>
      rw [XPattern.dedupLoop, ih]
      by_cases h : x.val = .nan <;> simp [List.filter_cons, h] <;> omega
    | cons y ys =>
      rw [XPattern.dedupLoop]
      by_cases h : x.val = .nan
      · rw [if_pos (C89_nan x y h).2.2.2.1, ih]
        simp only [List.filter_cons, h]
        split <;> simp <;> omega
      · split
        · rw [ih]; simp only [List.filter_cons, beq_iff_eq, h, if_false]
        · rw [ih]; simp only [List.filter_cons, beq_iff_eq, h, if_false]

theorem insertIdx_split {α} {x : α} : ∀ {l : List α} {k : Nat}, k ≤ l.length → l.insertIdx k x = l.take k ++ x :: l.drop k := by
  intro l
  induction l with
  | nil => intro k h; have : k = 0 := by simpa using h
           subst this; rfl
  | cons a l ih =>
    intro k h
    cases k with
    | zero => rfl
    | succ k => simp [ih (by simpa using h)]

/-- C89: patterns and `nan`. A selector with the value `nan` is never found in a pattern, never removed by `remove_selector`, and each `add_selector` puts it in once more; the constructor keeps
every occurrence of it, however the list is sorted; a pattern is equal to itself (and to its copy) exactly when it has no such selector - although it always counts as its own refinement. -/
theorem C89_nan_pattern (p : XPattern) (s : XSelector) (hs : s.val = .nan) :
    p.contains s = false ∧ p.remove s = p ∧ (∃ k, k ≤ p.sels.length ∧ (p.add s).sels = p.sels.take k ++ s :: p.sels.drop k) ∧
    (∀ l l' : List XSelector, l'.Perm l → ((XPattern.dedupLoop [] l').filter (·.val == .nan)).length = (l.filter (·.val == .nan)).length) ∧
    (p.eq p.copy = true ↔ ∀ t ∈ p.sels, t.val ≠ .nan) ∧ (∀ b, p.isRefinement p.copy b = b) := by
  have hne : ∀ t : XSelector, t.eq s = false ∧ t.ne s = true := fun t => ⟨(C89_nan s t hs).2.1, (C89_nan s t hs).2.2.2.1⟩
  refine ⟨?_, ?_, ?_, ?_, ?_, ?_⟩
  · unfold XPattern.contains
    split
    · rfl
    · split
      · exact (hne _).1
      · rfl
  · unfold XPattern.remove
    simp only
    split
    · rw [if_neg (by rw [(hne _).1]; decide)]
    · rfl
  · unfold XPattern.add
    simp only
    by_cases h : p.index s = p.sels.length
    · rw [if_pos h]; exact ⟨p.sels.length, le_refl _, by simp⟩
    · rw [if_neg h]
      have hle : p.index s ≤ p.sels.length := bisectLoop_le _ _ _ (Nat.zero_le _)
      rw [List.getElem?_eq_getElem (by omega)]
      simp only [(hne _).2, if_true]
      exact ⟨p.index s, hle, insertIdx_split hle⟩
  · intro l l' h
    rw [dedup_nan]
    simp only [List.filter_nil, List.length_nil, Nat.zero_add]
    exact (h.filter _).length_eq
  · unfold XPattern.eq XPattern.copy
    rw [if_neg (by simp)]
    exact eqLoop_self _
  · intro b
    unfold XPattern.isRefinement XPattern.copy
    simp only [gt_iff_lt, lt_irrefl, if_false]
    have : ∀ l : List XSelector, XPattern.setEq l l = true := by
      intro l
      simp only [XPattern.setEq, XPattern.issubset, beq_self_eq_true, Bool.true_and, List.all_eq_true, List.any_eq_true]
      exact fun x hx => ⟨x, hx, by simp [XPattern.same]⟩
    rw [if_pos (this _)]
/-! ### histories without `nan` -/

/-- the mutating operations of a pattern -/
inductive Spec.XPatOp
  | add (s : XSelector)
  | remove (s : XSelector)
  | removeByIndex (i : Int)
  | copy

/-- effect of an operation (a refused index leaves the pattern as it is) -/
def Spec.xpatStep (p : XPattern) : XPatOp → XPattern
  | .add s => p.add s
  | .remove s => p.remove s
  | .removeByIndex i => match p.removeByIndex i with
    | .ok q => q
    | .error _ => p
  | .copy => p.copy

/-- selectors mentioned by an operation -/
def Spec.XPatOp.sels : XPatOp → List XSelector
  | .add s => [s]
  | .remove s => [s]
  | _ => []

/-- all selectors mentioned by the constructor or an operation -/
def Spec.xmentioned (init : List XSelector) (ops : List XPatOp) : List XSelector := init ++ ops.flatMap XPatOp.sels

/-- the same history on an abstract set of selectors (a predicate up to `==`) -/
def Spec.xsetStep (p : XPattern) (A : XSelector → Prop) : XPatOp → XSelector → Prop
  | .add s => fun x => A x ∨ s.eq x = true
  | .remove s => fun x => A x ∧ ¬ s.eq x = true
  | .removeByIndex i => match p.get i with
    | .ok s => fun x => A x ∧ ¬ s.eq x = true
    | .error _ => A
  | .copy => A

/-- pattern and abstract set side by side -/
def Spec.xbothRun (init : List XSelector) (ops : List XPatOp) : XPattern × (XSelector → Prop) :=
  ops.foldl (fun st o => (xpatStep st.1 o, xsetStep st.1 st.2 o)) (XPattern.new init, fun x => ∃ s ∈ init, s.eq x = true)

def XPatOp.plain (B : Int) : XPatOp → PatOp
  | .add s => .add (s.plain B)
  | .remove s => .remove (s.plain B)
  | .removeByIndex i => .removeByIndex i
  | .copy => .copy

theorem both_plain {B : Int} {S : XSelector → Prop} (h : Tame B S) (init : List XSelector) (ops : List XPatOp) (hm : ∀ s ∈ xmentioned init ops, S s) :
    (bothRun (init.map (·.plain B)) (ops.map (XPatOp.plain B))).1 = ⟨(xbothRun init ops).1.sels.map (·.plain B)⟩ ∧ (∀ s ∈ (xbothRun init ops).1.sels, S s) ∧
    ∀ x, S x → ((xbothRun init ops).2 x ↔ (bothRun (init.map (·.plain B)) (ops.map (XPatOp.plain B))).2 (x.plain B)) := by
  have step : ∀ (ops : List XPatOp) (p : XPattern) (A : XSelector → Prop) (A' : Selector → Prop), (∀ o ∈ ops, ∀ s ∈ o.sels, S s) → (∀ s ∈ p.sels, S s) →
      (∀ x, S x → (A x ↔ A' (x.plain B))) →
      let r := ops.foldl (fun st o => (xpatStep st.1 o, xsetStep st.1 st.2 o)) (p, A)
      let r' := (ops.map (XPatOp.plain B)).foldl (fun st o => (patStep st.1 o, setStep st.1 st.2 o)) (⟨p.sels.map (·.plain B)⟩, A')
      r'.1 = ⟨r.1.sels.map (·.plain B)⟩ ∧ (∀ s ∈ r.1.sels, S s) ∧ ∀ x, S x → (r.2 x ↔ r'.2 (x.plain B)) := by
    intro ops
    induction ops with
    | nil => intro p A A' _ hp hA; exact ⟨rfl, hp, hA⟩
    | cons o os ih =>
      intro p A A' ho hp hA
      simp only [List.map_cons, List.foldl_cons]
      have hos : ∀ o ∈ os, ∀ s ∈ o.sels, S s := fun o h => ho o (by simp [h])
      cases o with
      | add s =>
        have hs : S s := ho (.add s) (by simp) s (by simp [XPatOp.sels])
        obtain ⟨g1, g2⟩ := h.add hp hs
        have e : patStep ⟨p.sels.map (·.plain B)⟩ (XPatOp.plain B (.add s)) = ⟨(xpatStep p (.add s)).sels.map (·.plain B)⟩ := g1
        rw [e]
        refine ih _ _ _ hos g2 (fun x hx => ?_)
        show (A x ∨ s.eq x = true) ↔ (A' (x.plain B) ∨ (s.plain B).eq (x.plain B) = true)
        rw [hA x hx, h.eq hs hx]
      | remove s =>
        have hs : S s := ho (.remove s) (by simp) s (by simp [XPatOp.sels])
        obtain ⟨g1, g2⟩ := h.remove hp hs
        have e : patStep ⟨p.sels.map (·.plain B)⟩ (XPatOp.plain B (.remove s)) = ⟨(xpatStep p (.remove s)).sels.map (·.plain B)⟩ := g1
        rw [e]
        refine ih _ _ _ hos g2 (fun x hx => ?_)
        show (A x ∧ ¬ s.eq x = true) ↔ (A' (x.plain B) ∧ ¬ (s.plain B).eq (x.plain B) = true)
        rw [hA x hx, h.eq hs hx]
      | removeByIndex i =>
        simp only [XPatOp.plain, patStep, xpatStep, setStep, xsetStep, Pattern.removeByIndex, XPattern.removeByIndex, Pattern.get, XPattern.get, List.length_map]
        cases hi : pyIndex p.sels.length i with
        | none => exact ih _ _ _ hos hp hA
        | some k =>
          have hk := Pattern.pyIndex_lt hi
          have hS : S p.sels[k] := hp _ (List.getElem_mem hk)
          simp only [List.getElem?_map, List.getElem?_eq_getElem hk, Option.map_some]
          have e : (⟨(p.sels.map (·.plain B)).eraseIdx k⟩ : Pattern) = ⟨(p.sels.eraseIdx k).map (·.plain B)⟩ := by
            rw [List.eraseIdx_map]
          rw [e]
          refine ih ⟨p.sels.eraseIdx k⟩ _ _ hos (fun t ht => hp t (List.mem_of_mem_eraseIdx ht)) (fun x hx => ?_)
          rw [hA x hx, h.eq hS hx]
      | copy => exact ih _ _ _ hos hp hA
  have hinit : ∀ s ∈ init, S s := fun s hs => hm s (by simp [xmentioned, hs])
  obtain ⟨n1, n2⟩ := h.new init hinit
  unfold bothRun xbothRun
  rw [n1]
  refine step ops (XPattern.new init) _ _ (fun o ho s hs => hm s ?_) n2 (fun x hx => ?_)
  · simp only [xmentioned, List.mem_append, List.mem_flatMap]
    exact .inr ⟨o, ho, hs⟩
  · simp only [List.mem_map]
    constructor
    · rintro ⟨s, hs, he⟩; exact ⟨_, ⟨s, hs, rfl⟩, by rw [← h.eq (hinit s hs) hx]; exact he⟩
    · rintro ⟨_, ⟨s, hs, rfl⟩, he⟩; exact ⟨s, hs, by rw [h.eq (hinit s hs) hx]; exact he⟩

theorem mentioned_plain {B : Int} {S : XSelector → Prop} (init : List XSelector) (ops : List XPatOp) (hm : ∀ s ∈ xmentioned init ops, S s) :
    ∀ s ∈ mentioned (init.map (·.plain B)) (ops.map (XPatOp.plain B)), Tame.image B S s := by
  intro s hs
  simp only [mentioned, List.mem_append, List.mem_map, List.mem_flatMap] at hs
  rcases hs with ⟨t, ht, rfl⟩ | ⟨_, ⟨o, ho, rfl⟩, hs⟩
  · exact ⟨t, hm t (by simp [xmentioned, ht]), rfl⟩
  · have key : ∃ t ∈ o.sels, s = t.plain B := by
      cases o <;> simp [XPatOp.plain, PatOp.sels, XPatOp.sels] at hs ⊢ <;> exact hs
    obtain ⟨t, ht, rfl⟩ := key
    exact ⟨t, hm t (by simp only [xmentioned, List.mem_append, List.mem_flatMap]; exact .inr ⟨o, ho, ht⟩), rfl⟩

/-- C89: histories of a pattern without `nan`. Values inf, -inf and -0.0 change nothing: after any constructor call and any history over homogeneous selectors, the selectors are in
strictly increasing order, `x in p` holds exactly for the members of the abstract set with the same history, and two patterns are `==` exactly when they have the same members. -/
theorem C89_set (S : XSelector → Prop) (hS : XHomogeneous S) (hn : ∀ s, S s → s.val ≠ .nan) (init init' : List XSelector) (ops ops' : List XPatOp)
    (hm : ∀ s ∈ xmentioned init ops, S s) (hm' : ∀ s ∈ xmentioned init' ops', S s) :
    (xbothRun init ops).1.sels.Pairwise (fun a b => a.lt b = true ∧ a.eq b = false) ∧
    (∀ x, S x → ((xbothRun init ops).1.contains x = true ↔ (xbothRun init ops).2 x)) ∧
    ((xbothRun init ops).1.eq (xbothRun init' ops').1 = true ↔ ∀ x, S x → ((xbothRun init ops).2 x ↔ (xbothRun init' ops').2 x)) ∧
    (xbothRun init ops).1.ne (xbothRun init' ops').1 = !(xbothRun init ops).1.eq (xbothRun init' ops').1 := by
  have tame : ∀ l : List XSelector, (∀ s ∈ l, S s) → ∃ B, Tame B (· ∈ xmentioned init ops ++ xmentioned init' ops' ++ l) := by
    intro l hl
    have all : ∀ s ∈ xmentioned init ops ++ xmentioned init' ops' ++ l, S s := by
      intro s hs
      simp only [List.mem_append] at hs
      rcases hs with (h | h) | h
      · exact hm s h
      · exact hm' s h
      · exact hl s h
    obtain ⟨B, hB, hf⟩ := exists_fits _ (fun s hs => hn s (all s hs))
    exact ⟨B, hB, hf, fun a b ha hb => hS a b (all a ha) (all b hb)⟩
  have in1 : ∀ l : List XSelector, ∀ s ∈ xmentioned init ops, s ∈ xmentioned init ops ++ xmentioned init' ops' ++ l := fun l s hs => by simp [hs]
  have in2 : ∀ l : List XSelector, ∀ s ∈ xmentioned init' ops', s ∈ xmentioned init ops ++ xmentioned init' ops' ++ l := fun l s hs => by simp [hs]
  refine ⟨?_, ?_, ?_, ?_⟩
  · obtain ⟨B, h⟩ := tame [] (by simp)
    obtain ⟨b1, b2, _⟩ := both_plain h init ops (in1 [])
    have := C06_homogeneous _ h.image_homogeneous _ _ (mentioned_plain (B := B) init ops (in1 []))
    rw [← bothRun_fst, b1] at this
    simp only [List.pairwise_map] at this
    refine this.imp_of_mem (fun {a b} ha hb hab => ?_)
    rw [(h.cmp (b2 a ha) (b2 b hb)).1, h.eq (b2 a ha) (b2 b hb)]; exact hab
  · intro x hx
    obtain ⟨B, h⟩ := tame [x] (by simpa using hx)
    have mx : x ∈ xmentioned init ops ++ xmentioned init' ops' ++ [x] := by simp
    obtain ⟨b1, b2, b3⟩ := both_plain h init ops (in1 [x])
    have := C07_contains _ h.image_homogeneous _ _ (mentioned_plain (B := B) init ops (in1 [x])) (x.plain B) ⟨x, mx, rfl⟩
    rw [← bothRun_fst, b1, h.contains b2 mx] at this
    rw [this, b3 x mx]
  · constructor
    · intro he x hx
      obtain ⟨B, h⟩ := tame [x] (by simpa using hx)
      have mx : x ∈ xmentioned init ops ++ xmentioned init' ops' ++ [x] := by simp
      obtain ⟨b1, b2, b3⟩ := both_plain h init ops (in1 [x])
      obtain ⟨c1, c2, c3⟩ := both_plain h init' ops' (in2 [x])
      have := (C07_eq _ h.image_homogeneous _ _ _ _ (mentioned_plain (B := B) init ops (in1 [x])) (mentioned_plain (B := B) init' ops' (in2 [x]))).1
      rw [← bothRun_fst, ← bothRun_fst, b1, c1, (h.patEq b2 c2).1] at this
      rw [b3 x mx, c3 x mx]
      exact this.1 he _ ⟨x, mx, rfl⟩
    · intro hx
      obtain ⟨B, h⟩ := tame [] (by simp)
      obtain ⟨b1, b2, b3⟩ := both_plain h init ops (in1 [])
      obtain ⟨c1, c2, c3⟩ := both_plain h init' ops' (in2 [])
      have := (C07_eq _ h.image_homogeneous _ _ _ _ (mentioned_plain (B := B) init ops (in1 [])) (mentioned_plain (B := B) init' ops' (in2 []))).1
      rw [← bothRun_fst, ← bothRun_fst, b1, c1, (h.patEq b2 c2).1] at this
      refine this.2 ?_
      rintro _ ⟨x, mx, rfl⟩
      rw [← b3 x mx, ← c3 x mx]
      refine hx x ?_
      simp only [List.append_nil, List.mem_append] at mx
      exact mx.elim (hm x) (hm' x)
  · obtain ⟨B, h⟩ := tame [] (by simp)
    obtain ⟨b1, b2, _⟩ := both_plain h init ops (in1 [])
    obtain ⟨c1, c2, _⟩ := both_plain h init' ops' (in2 [])
    have := (C07_eq _ h.image_homogeneous _ _ _ _ (mentioned_plain (B := B) init ops (in1 [])) (mentioned_plain (B := B) init' ops' (in2 []))).2
    rw [← bothRun_fst, ← bothRun_fst, b1, c1, (h.patEq b2 c2).1, (h.patEq b2 c2).2] at this
    exact this

/-! ### printed form -/

theorem xparse_val (v : Val) (hp : ∀ f, v = .flt f → '.' ∈ f.str) : XSelector.parseVal (XSelector.valText (.val v)) = .ok (.val v) := by
  show XSelector.parseVal (Selector.valText v) = _
  unfold XSelector.parseVal
  cases v with
  | str x => rw [Selector.parseVal_str]
  | int z => rw [Selector.parseVal_int]
  | flt f =>
    rw [Selector.parseVal_flt f (hp f rfl)]
    simp only
    rw [if_neg]
    rintro ⟨h0, h1⟩
    have : f = mkFlt 0 0 := by
      obtain ⟨m, e, n⟩ := f
      simp only at h0
      subst h0
      rcases n with ⟨_, rfl⟩ | h
      · simp [mkFlt, stripZeros]
      · exact absurd ⟨0, by simp⟩ h
    subst this
    revert h1
    decide +kernel

theorem xgenerate_of_no_blank (s : XSelector) (ha : ' ' ∉ s.attr) :
    XSelector.generateFromStr s.str = (match XSelector.parseVal (XSelector.valText s.val) with
      | .error e => .error e
      | .ok v => if !XSelector.legal s.op v then .error .valueError else .ok ⟨s.attr, s.op, v⟩) := by
  unfold XSelector.generateFromStr XSelector.str
  rw [Selector.split_str ha]
  simp only [Selector.split_op, Op.roundtrip]
  rfl

theorem xgenerate_attr {x : Str} {t : XSelector} (h : XSelector.generateFromStr x = .ok t) : ' ' ∉ t.attr := by
  unfold XSelector.generateFromStr at h
  split at h
  · cases h
  · rename_i a rest heq
    split at h
    rename_i o third heq2
    split at h
    · cases h
    · split at h
      · cases h
      · split at h
        · cases h
        · split at h
          · cases h
          · cases h
            intro hb
            exact Selector.splitFirst_fst_ne (s := x) hb (by rw [heq])

theorem XVal.eq_self (v : XVal) (h : v ≠ .nan) : v.eq v = true := by
  cases v with
  | val w => cases w <;> simp [XVal.eq, XVal.eqNum]
  | nan => exact absurd rfl h
  | _ => rfl

/-- **C89.** The text of a selector, for all values. It is read back as an equal selector exactly when the column name has no blank, a float shows its point, and the value is neither `nan` nor
infinite; `-0.0` comes back as `-0.0`. `nan`, `inf` and `-inf` come back as the texts 'nan', 'inf' and '-inf' - a different selector, or a `ValueError` under an order operator. -/
theorem C89_text (s : XSelector) (hl : XSelector.legal s.op s.val = true) :
    ((∃ t, XSelector.generateFromStr s.str = .ok t ∧ t.eq s = true) ↔
      ' ' ∉ s.attr ∧ (∀ f, s.val = .val (.flt f) → (10 ≤ f.m.natAbs ∨ (-4 ≤ f.e ∧ f.e ≤ 15))) ∧ s.val ≠ .nan ∧ s.val ≠ .pinf ∧ s.val ≠ .ninf) ∧
    (∀ t, XSelector.generateFromStr s.str = .ok t → t.eq s = true → t = s) ∧
    (' ' ∉ s.attr → s.val = .nan ∨ s.val = .pinf ∨ s.val = .ninf →
      XSelector.generateFromStr s.str = if s.op = .equal ∨ s.op = .notEqual then .ok ⟨s.attr, s.op, .val (.str s.val.pyStr)⟩ else .error .valueError) := by
  have inf : ' ' ∉ s.attr → s.val = .nan ∨ s.val = .pinf ∨ s.val = .ninf →
      XSelector.generateFromStr s.str = if s.op = .equal ∨ s.op = .notEqual then .ok ⟨s.attr, s.op, .val (.str s.val.pyStr)⟩ else .error .valueError := by
    intro hb hv
    have hp : XSelector.parseVal (XSelector.valText s.val) = .ok (.val (.str s.val.pyStr)) := by
      rcases hv with h | h | h <;> rw [h] <;> decide +kernel
    rw [xgenerate_of_no_blank s hb, hp]
    cases hop : s.op <;> simp [XSelector.legal, XVal.isStr, Val.isStr]
  have good : ' ' ∉ s.attr → (∀ f, s.val = .val (.flt f) → (10 ≤ f.m.natAbs ∨ (-4 ≤ f.e ∧ f.e ≤ 15))) → s.val ≠ .nan → s.val ≠ .pinf → s.val ≠ .ninf →
      XSelector.generateFromStr s.str = .ok s := by
    intro hb hf h1 h2 h3
    have hp : XSelector.parseVal (XSelector.valText s.val) = .ok s.val := by
      cases hv : s.val with
      | val v => exact xparse_val v (fun f hvf => (fltStr_point f).2 (hf f (by rw [hv, hvf])))
      | nan => exact absurd hv h1
      | pinf => exact absurd hv h2
      | ninf => exact absurd hv h3
      | nzero => decide +kernel
    rw [xgenerate_of_no_blank s hb, hp]
    simp [hl]
  have bad : ∀ t, XSelector.generateFromStr s.str = .ok t → t.eq s = true →
      ' ' ∉ s.attr ∧ (∀ f, s.val = .val (.flt f) → (10 ≤ f.m.natAbs ∨ (-4 ≤ f.e ∧ f.e ≤ 15))) ∧ s.val ≠ .nan ∧ s.val ≠ .pinf ∧ s.val ≠ .ninf := by
    intro t h1 h2
    have ha : t.attr = s.attr := by
      simp only [XSelector.eq, Bool.and_eq_true, beq_iff_eq] at h2; exact h2.1.1
    have hb : ' ' ∉ s.attr := ha ▸ xgenerate_attr h1
    have hno : ¬ (s.val = .nan ∨ s.val = .pinf ∨ s.val = .ninf) := by
      intro hv
      rw [inf hb hv] at h1
      split at h1
      · cases h1
        have : (XVal.val (.str s.val.pyStr)).eq s.val = false := by rcases hv with h | h | h <;> rw [h] <;> rfl
        simp [XSelector.eq, this] at h2
      · cases h1
    refine ⟨hb, fun f hf => ?_, fun h => hno (.inl h), fun h => hno (.inr (.inl h)), fun h => hno (.inr (.inr h))⟩
    rw [← fltStr_point]
    by_contra hp
    have e : XSelector.parseVal (XSelector.valText s.val) = .ok (.val (.str f.str)) := by
      rw [hf]
      show XSelector.parseVal (Selector.valText (.flt f)) = _
      unfold XSelector.parseVal
      rw [Selector.parseVal_flt_nopoint f hp]
    rw [xgenerate_of_no_blank s hb, e] at h1
    simp only at h1
    split at h1
    · cases h1
    · cases h1
      simp [XSelector.eq, hf, XVal.eq] at h2
  refine ⟨⟨fun ⟨t, h1, h2⟩ => bad t h1 h2, fun ⟨h1, h2, h3, h4, h5⟩ => ⟨s, good h1 h2 h3 h4 h5, ?_⟩⟩, fun t h1 h2 => ?_, inf⟩
  · have ho : s.op.eq s.op = true := by cases s.op <;> rfl
    simp [XSelector.eq, ho, XVal.eq_self _ h3]
  · obtain ⟨b1, b2, b3, b4, b5⟩ := bad t h1 h2
    rw [good b1 b2 b3 b4 b5] at h1
    cases h1; rfl

/-- non-vacuity: the four special values, written and read -/
example : XSelector.generateFromStr (⟨c!"a", .less, .nzero⟩ : XSelector).str = .ok ⟨c!"a", .less, .nzero⟩ ∧
    XSelector.generateFromStr (⟨c!"a", .equal, .nan⟩ : XSelector).str = .ok ⟨c!"a", .equal, .val (.str c!"nan")⟩ ∧
    XSelector.generateFromStr (⟨c!"a", .less, .ninf⟩ : XSelector).str = .error .valueError := by decide +kernel

/-- C89: equality and printed form (hence hash). Two selectors with equal values print the same exactly when they are the same selector; -0.0 is equal to 0 and 0.0 and prints differently. -/
theorem C89_hash (s t : XSelector) (h : s.eq t = true) : (s.str = t.str ↔ s = t) ∧ (s.val = .nzero → (t.val = .nzero ∨ ∃ v, t.val = .val v ∧ v.isStr = false ∧ v.num = 0)) ∧
    (s.val = .pinf → s = t) ∧ (s.val = .ninf → s = t) := by
  have ha : s.attr = t.attr ∧ s.op = t.op ∧ s.val.eq t.val = true := by
    simp only [XSelector.eq, Bool.and_eq_true, beq_iff_eq, Op.eq] at h
    exact ⟨h.1.1, Op.value_inj (by simpa using h.1.2), h.2⟩
  obtain ⟨h1, h2, h3⟩ := ha
  have same : s.val = t.val → s = t := by
    intro hv; cases s; cases t; simp only at h1 h2 hv; subst h1 h2 hv; rfl
  have nz : ∀ v : Val, Selector.valText v ≠ c!"-0.0" := by
    intro v hv
    have hp : Selector.parseVal (Selector.valText v) = .ok (.flt (mkFlt 0 0)) := by rw [hv]; decide +kernel
    cases v with
    | str x => simp [Selector.valText] at hv
    | int i => rw [Selector.parseVal_int] at hp; cases hp
    | flt f =>
      have hpt : '.' ∈ f.str := by
        have : f.str = c!"-0.0" := hv
        rw [this]; decide
      rw [Selector.parseVal_flt f hpt] at hp
      have e : f = mkFlt 0 0 := by simpa using hp
      subst e
      revert hv; decide +kernel
  refine ⟨⟨fun he => same ?_, fun he => by rw [he]⟩, ?_, ?_, ?_⟩
  · unfold XSelector.str at he
    rw [h1, h2, List.append_cancel_left_eq] at he
    cases hs : s.val with
    | val v =>
      cases ht : t.val with
      | val w => rw [hs, ht] at he; rw [Selector.valText_inj he]
      | nan => rw [ht, (XVal.eq_nan _).1] at h3; cases h3
      | pinf => rw [hs, ht] at h3; cases v <;> cases h3
      | ninf => rw [hs, ht] at h3; cases v <;> cases h3
      | nzero => rw [hs, ht] at he; exact absurd he (nz v)
    | nan => rw [hs, (XVal.eq_nan _).2] at h3; cases h3
    | pinf => rw [hs] at h3; cases ht : t.val with
      | val w => rw [ht] at h3; cases w <;> cases h3
      | pinf => rfl
      | _ => rw [ht] at h3; cases h3
    | ninf => rw [hs] at h3; cases ht : t.val with
      | val w => rw [ht] at h3; cases w <;> cases h3
      | ninf => rfl
      | _ => rw [ht] at h3; cases h3
    | nzero =>
      cases ht : t.val with
      | val w => rw [hs, ht] at he; exact absurd he.symm (nz w)
      | nzero => rfl
      | _ => rw [hs, ht] at h3; cases h3
  · intro hs
    cases ht : t.val with
    | nzero => exact .inl rfl
    | val w =>
      right
      rw [hs, ht] at h3
      cases w with
      | str x => cases h3
      | int i => exact ⟨_, rfl, rfl, by simpa [XVal.eq, XVal.eqNum] using h3⟩
      | flt f => exact ⟨_, rfl, rfl, by simpa [XVal.eq, XVal.eqNum] using h3⟩
    | _ => rw [hs, ht] at h3; cases h3
  · intro hs
    refine same ?_
    rw [hs] at h3 ⊢
    cases ht : t.val with
    | val w => rw [ht] at h3; cases w <;> cases h3
    | pinf => rfl
    | _ => rw [ht] at h3; cases h3
  · intro hs
    refine same ?_
    rw [hs] at h3 ⊢
    cases ht : t.val with
    | val w => rw [ht] at h3; cases w <;> cases h3
    | ninf => rfl
    | _ => rw [ht] at h3; cases h3

/-- non-vacuity: `a = -0.0`, `a = 0.0` and `a = 0` are equal and print in three ways -/
example : (⟨c!"a", .equal, .nzero⟩ : XSelector).eq ⟨c!"a", .equal, .val (.flt (mkFlt 0 0))⟩ = true ∧ (⟨c!"a", .equal, .nzero⟩ : XSelector).eq ⟨c!"a", .equal, .val (.int 0)⟩ = true ∧
    (⟨c!"a", .equal, .nzero⟩ : XSelector).str = c!"a = -0.0" ∧ (⟨c!"a", .equal, .val (.flt (mkFlt 0 0))⟩ : XSelector).str = c!"a = 0.0" := by decide +kernel

/-- non-vacuity of `C89_set`: a pattern with infinities, and -0.0 removed as 0 -/
example : (xbothRun [⟨c!"a", .less, .pinf⟩, ⟨c!"a", .less, .nzero⟩, ⟨c!"a", .less, .ninf⟩, ⟨c!"a", .less, .val (.int 7)⟩, ⟨c!"a", .less, .pinf⟩]
    [.remove ⟨c!"a", .less, .val (.int 0)⟩]).1.sels = [⟨c!"a", .less, .ninf⟩, ⟨c!"a", .less, .val (.int 7)⟩, ⟨c!"a", .less, .pinf⟩] := by decide +kernel

/-- non-vacuity of `C89_nan_pattern`: added twice, kept twice, never found; the pattern differs from its copy -/
example : let p := (XPattern.new [⟨c!"a", .equal, .nan⟩, ⟨c!"b", .equal, .val (.int 1)⟩]).add ⟨c!"a", .equal, .nan⟩
    p.sels.length = 3 ∧ p.contains ⟨c!"a", .equal, .nan⟩ = false ∧ p.eq p.copy = false ∧ p.isRefinement p.copy true = true := by decide +kernel

/-- C89: one `nan` spoils the search for the other selectors of a pattern: with the column values 5, nan, 3 given to the constructor, both 5 and 3 are kept and only one of them is found. -/
theorem C89_nan_spoils : ∃ l : List XSelector, (∀ s ∈ l, s.attr = c!"a" ∧ s.op = .equal ∧ s.val.isStr = false) ∧
    ∃ s ∈ (XPattern.new l).sels, s.val ≠ .nan ∧ (XPattern.new l).contains s = false ∧ (XPattern.new l).remove s = XPattern.new l :=
  ⟨[⟨c!"a", .equal, .val (.int 5)⟩, ⟨c!"a", .equal, .nan⟩, ⟨c!"a", .equal, .val (.int 3)⟩], by decide +kernel,
    ⟨c!"a", .equal, .val (.int 3)⟩, by decide +kernel, by decide +kernel, by decide +kernel, by decide +kernel⟩
end Verif

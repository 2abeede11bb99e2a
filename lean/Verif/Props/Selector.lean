import Verif.Spec.Order
import Verif.Lemmas.SelectorOrder
import Verif.Lemmas.SelectorText
/-! Properties C01 - C05: operators and selectors. -/
namespace Verif
open Spec

/-! ## C01 operators -/

/-- the meaning of each operator, as a relation of a linear order -/
def Spec.opMeaning {α : Type} [LT α] [LE α] : Op → α → α → Prop
  | .equal, x, y => x = y
  | .notEqual, x, y => x ≠ y
  | .less, x, y => x < y
  | .greater, x, y => y < x
  | .lessOrEqual, x, y => x ≤ y
  | .greaterOrEqual, x, y => y ≤ x

/-- parsing the printed form gives the operator back -/
theorem C01_roundtrip (op : Op) : Op.generateFromStr op.str = .ok op := Op.roundtrip op

/-- a text parses exactly when it is the printed form of an operator; every other text is an `AttributeError` -/
theorem C01_parse (s : Str) :
    (∀ op, Op.generateFromStr s = .ok op ↔ s = op.str) ∧
    ((∀ op : Op, s ≠ op.str) ↔ Op.generateFromStr s = .error .attributeError) := by
  constructor
  · intro op
    exact ⟨Op.generateFromStr_ok, fun h => h ▸ Op.roundtrip op⟩
  · constructor
    · intro h
      cases hs : Op.generateFromStr s with
      | ok op => exact absurd (Op.generateFromStr_ok hs) (h op)
      | error e => rw [Op.generateFromStr_error hs]
    · intro h op hs
      rw [hs, Op.roundtrip] at h; cases h

/-- on numbers `evaluate` decides the named comparison of the numeric values -/
theorem C01_evaluate_num (op : Op) (l r : Val) (hl : l.isStr = false) (hr : r.isStr = false) :
    ∃ b, op.evaluate l r = .ok b ∧ (b = true ↔ opMeaning op l.num r.num) := by
  have hrat : ∀ x y : Rat, (decide (x ≤ y) = true ↔ x ≤ y) := fun x y => decide_eq_true_iff
  have hrat' : ∀ x y : Rat, (decide (x < y) = true ↔ x < y) := fun x y => decide_eq_true_iff
  cases l <;> simp [Val.isStr] at hl <;> cases r <;> simp [Val.isStr] at hr <;> cases op <;>
    exact ⟨_, rfl, by first
      | exact hrat _ _ | exact hrat' _ _ | simp [opMeaning, Val.eq]⟩

/-- on texts `evaluate` decides the named comparison, lexicographic by code points -/
theorem C01_evaluate_str (op : Op) (l r : Str) :
    ∃ b, op.evaluate (.str l) (.str r) = .ok b ∧ (b = true ↔ opMeaning op l r) := by
  have hle : ∀ a b : Str, (strLt a b || a == b) = true ↔ a ≤ b := by
    intro a b
    simp [strLt_iff, le_iff_lt_or_eq]
  cases op <;> exact ⟨_, rfl, by first
    | exact hle _ _ | exact strLt_iff _ _ | simp [opMeaning, Val.eq]⟩

/-- a text and a number are different, and are not ordered (`TypeError`) -/
theorem C01_evaluate_mixed (op : Op) (l r : Val) (h : l.isStr ≠ r.isStr) :
    op.evaluate l r = (match op with
      | .equal => .ok false
      | .notEqual => .ok true
      | _ => .error .typeError) := by
  cases l <;> cases r <;> simp [Val.isStr] at h <;> cases op <;> rfl

/-- `match` on another attribute is false; on its own attribute it is the comparison of the given value (left) with the value of the
selector (right) -/
theorem C01_match (s : Selector) (attr : Str) (v : Val) :
    (attr ≠ s.attr → s.match attr v = .ok false) ∧
    (attr = s.attr → v.isStr = false → s.val.isStr = false → ∃ b, s.match attr v = .ok b ∧ (b = true ↔ opMeaning s.op v.num s.val.num)) ∧
    (attr = s.attr → ∀ l r, v = .str l → s.val = .str r → ∃ b, s.match attr v = .ok b ∧ (b = true ↔ opMeaning s.op l r)) ∧
    (attr = s.attr → v.isStr ≠ s.val.isStr → s.match attr v = (match s.op with
      | .equal => .ok false
      | .notEqual => .ok true
      | _ => .error .typeError)) := by
  unfold Selector.match
  refine ⟨fun h => if_neg h, fun h h1 h2 => ?_, fun h l r h1 h2 => ?_, fun h h1 => ?_⟩
  · rw [if_pos h]; exact C01_evaluate_num _ _ _ h1 h2
  · rw [if_pos h, h1, h2]; exact C01_evaluate_str _ _ _
  · rw [if_pos h]; exact C01_evaluate_mixed _ _ _ h1

example : Selector.match ⟨c!"a", .less, .int 5⟩ c!"a" (.int 4) = .ok true ∧ Selector.match ⟨c!"a", .less, .int 5⟩ c!"b" (.int 4) = .ok false ∧
    Selector.match ⟨c!"a", .less, .int 5⟩ c!"a" (.str c!"x") = .error .typeError := by decide +kernel

/-- the comparison methods of `Operator` are those of the total order of the declaration order -/
theorem C01_order : TotalOrder (fun _ : Op => True) Op.eq Op.ne Op.lt Op.gt Op.le Op.ge ∧
    (∀ a b : Op, Op.eq a b = true ↔ a = b) ∧
    (∀ a b : Op, Op.lt a b = true ↔ [Op.equal, .notEqual, .less, .greater, .lessOrEqual, .greaterOrEqual].idxOf a
      < [Op.equal, .notEqual, .less, .greater, .lessOrEqual, .greaterOrEqual].idxOf b) := by
  refine ⟨?_, ?_, ?_⟩
  · constructor
    · intro a _; simp [Op.eq]
    · intro a b _ _; simp only [Op.eq, beq_iff_eq]; exact Eq.symm
    · intro a b c _ _ _; simp only [Op.eq, beq_iff_eq]; exact Eq.trans
    · intro a b _ _; simp [Op.eq, Op.ne, bne]
    · intro a _; simp [Op.lt]
    · intro a b c _ _ _; simp only [Op.lt, decide_eq_true_eq]; exact Nat.lt_trans
    · intro a a' b b' _ _ _ _; simp only [Op.eq, beq_iff_eq, Op.lt]; intro h1 h2; rw [h1, h2]
    · intro a b _ _; simp only [Op.eq, Op.lt, Op.gt, decide_eq_true_eq, decide_eq_false_iff_not, beq_iff_eq,
        beq_eq_false_iff_ne]; omega
    · intro a b _ _; simp [Op.lt, Op.gt]
    · intro a b _ _; simp only [Op.le, Op.gt, ← decide_not, gt_iff_lt, not_lt]
    · intro a b _ _; simp only [Op.ge, Op.lt, ← decide_not, ge_iff_le, not_lt]
  · intro a b; cases a <;> cases b <;> decide
  · intro a b; cases a <;> cases b <;> decide

/-- non-vacuity: a comparison of two different kinds of number that holds, and one that does not -/
example : Op.evaluate .less (.int 1) (.flt (mkFlt 15 (-1))) = .ok true ∧
    Op.evaluate .greaterOrEqual (.int 1) (.flt (mkFlt 15 (-1))) = .ok false := by decide +kernel

/-! ## C02 the selector pool -/

/-- what the program can do to the pool: construct a selector, or garbage-collect the entries of dead selectors
(any subset of the entries: `keep` says which objects are still referenced) -/
inductive Spec.PoolOp
  | construct (attr : Str) (op : Op) (v : Val)
  | collect (keep : Selector → Bool)

/-- the pool after one step of the program -/
def Spec.poolStep (p : Selector.Pool) : PoolOp → Selector.Pool
  | .construct a o v => match Selector.new p a o v with
    | .ok (_, p') => p'
    | .error _ => p
  | .collect keep => p.filter (fun e => keep e.2)

/-- the pool after a history, from the empty pool of a fresh interpreter -/
def Spec.poolAfter (h : List PoolOp) : Selector.Pool := h.foldl poolStep []

/-- attribute names used in a history -/
def Spec.namesOf (h : List PoolOp) : List Str :=
  h.filterMap (fun | .construct a _ _ => some a | .collect _ => none)

theorem poolInv_step {Q : Str → Prop} {p : Selector.Pool} {o : PoolOp}
    (hp : ∀ e ∈ p, e.1 = e.2.str ∧ Q e.2.attr) (ho : ∀ a ∈ namesOf [o], Q a) :
    ∀ e ∈ poolStep p o, e.1 = e.2.str ∧ Q e.2.attr := by
  intro e he
  cases o with
  | collect keep => exact hp e (List.mem_of_mem_filter he)
  | construct a op v =>
    simp only [poolStep, Selector.new] at he
    split at he
    · rename_i r p' heq
      split at heq
      · cases heq
      · split at heq
        · cases heq; exact hp e he
        · cases heq
          rcases List.mem_cons.1 he with rfl | he
          · exact ⟨rfl, ho a (by simp [namesOf])⟩
          · exact hp e he
    · exact hp e he

theorem poolInv {Q : Str → Prop} (h : List PoolOp) (hh : ∀ a ∈ namesOf h, Q a) :
    ∀ e ∈ poolAfter h, e.1 = e.2.str ∧ Q e.2.attr := by
  have : ∀ (h : List PoolOp) (p : Selector.Pool), (∀ a ∈ namesOf h, Q a) → (∀ e ∈ p, e.1 = e.2.str ∧ Q e.2.attr) →
      ∀ e ∈ h.foldl poolStep p, e.1 = e.2.str ∧ Q e.2.attr := by
    intro h
    induction h with
    | nil => intro p _ hp; exact hp
    | cons o os ih =>
      intro p hn hp
      refine ih _ (fun a ha => hn a ?_) (poolInv_step hp (fun a ha => hn a ?_))
      · simp only [namesOf, List.filterMap_cons]
        split
        · exact ha
        · exact List.mem_cons_of_mem _ ha
      · cases o with
        | construct x _ _ => simp [namesOf] at ha ⊢; exact .inl ha
        | collect => simp [namesOf] at ha
  exact this h [] hh (by simp)

/-- An ordering operator with a text value is refused in every state, everything else is accepted. -/
theorem C02_illegal_refused (h : List PoolOp) (a : Str) (op : Op) (v : Val) :
    (Selector.new (poolAfter h) a op v = .error .valueError ↔
      (∃ s, v = .str s) ∧ op ≠ .equal ∧ op ≠ .notEqual) ∧
    ((∃ r, Selector.new (poolAfter h) a op v = .ok r) ↔ ¬ ((∃ s, v = .str s) ∧ op ≠ .equal ∧ op ≠ .notEqual)) := by
  have hl : Selector.legal op v = false ↔ (∃ s, v = .str s) ∧ op ≠ .equal ∧ op ≠ .notEqual := by
    cases v <;> cases op <;> simp [Selector.legal, Val.isStr, bne]
  unfold Selector.new
  cases hlv : Selector.legal op v with
  | false => simp [← hl, hlv]
  | true =>
    have : ¬ ((∃ s, v = .str s) ∧ op ≠ .equal ∧ op ≠ .notEqual) := by rw [← hl, hlv]; simp
    simp only [this, Bool.not_true, Bool.false_eq_true, if_false, iff_false, not_false_iff, iff_true]
    constructor
    · split <;> simp
    · split <;> exact ⟨_, rfl⟩

/-- C02: the constructor returns the selector asked for, whatever the history of constructions and
garbage collections, provided that no attribute name used contains a simple quote, or that none contains a blank.
The exact condition is in `C02_exact`; the unrestricted claim is false of the code (`C02_fails`). -/
theorem C02_noCollision (h : List PoolOp) (a : Str) (op : Op) (v : Val)
    (hq : (∀ n ∈ a :: namesOf h, '\'' ∉ n) ∨ (∀ n ∈ a :: namesOf h, ' ' ∉ n))
    (hl : (∃ s, v = .str s) → op = .equal ∨ op = .notEqual) :
    ∃ p', Selector.new (poolAfter h) a op v = .ok (⟨a, op, v⟩, p') := by
  have hlegal : Selector.legal op v = true := by
    cases v <;> cases op <;> simp [Selector.legal, Val.isStr, bne] at hl ⊢
  have key : ∀ s, (poolAfter h).lookup (⟨a, op, v⟩ : Selector).str = some s → s = ⟨a, op, v⟩ := by
    intro s hs
    have hm : ((⟨a, op, v⟩ : Selector).str, s) ∈ poolAfter h := by
      obtain ⟨l1, l2, h1, _⟩ := List.lookup_eq_some_iff.1 hs
      simp [h1]
    rcases hq with hq | hq
    · have := poolInv (Q := fun n => '\'' ∉ n) h (fun n hn => hq n (List.mem_cons_of_mem _ hn)) _ hm
      exact Selector.str_inj_of_no_quote this.2 (hq a (by simp)) this.1.symm
    · have := poolInv (Q := fun n => ' ' ∉ n) h (fun n hn => hq n (List.mem_cons_of_mem _ hn)) _ hm
      exact Selector.str_inj_of_no_blank this.2 (hq a (by simp)) this.1.symm
  unfold Selector.new
  simp only [hlegal, Bool.not_true, Bool.false_eq_true, if_false]
  have heq : a ++ c!" " ++ op.str ++ c!" " ++ Selector.valText v = (⟨a, op, v⟩ : Selector).str := rfl
  rw [heq]
  split
  · rename_i s hs; rw [key s hs]; exact ⟨_, rfl⟩
  · exact ⟨_, rfl⟩

/-- non-vacuity: a history with reuse and collection meeting the hypotheses of `C02_noCollision` -/
example : (∀ n ∈ c!"my col" :: namesOf [.construct c!"my col" .equal (.str c!"it's"), .collect (fun _ => true),
    .construct c!"b" .less (.int 3)], '\'' ∉ n) := by decide

/-- The unrestricted claim is false: after `Selector("a", =, "b' = 'c")`, the call `Selector("a = 'b'", =, "c")` returns
the former object, with another attribute name and another value (if the former is still alive). -/
theorem C02_fails : ∃ (h : List PoolOp) (a : Str) (op : Op) (v : Val) (s : Selector) (p' : Selector.Pool),
    Selector.new (poolAfter h) a op v = .ok (s, p') ∧ s.attr ≠ a ∧ s.val ≠ v :=
  ⟨[.construct c!"a" .equal (.str c!"b' = 'c")], c!"a = 'b'", .equal, .str c!"c",
    ⟨c!"a", .equal, .str c!"b' = 'c"⟩, _, rfl, by decide, by decide⟩

/-! ## C03 equality and hash -/

/-- The hash is a function of the printed form (`core/selector.py:190-191`); `hash` stands for Python's `str` hash. -/
def Selector.hash (hashStr : Str → Int) (s : Selector) : Int := hashStr s.str

/-- C03: equal selectors have the same printed form, hence the same hash whatever the hash function on texts,
when their values are of the same type. It is false for an int and a float of the same value (`C03_fails`, `C03_exact`). -/
theorem C03_sameKind (hashStr : Str → Int) (s t : Selector) (h : s.eq t = true)
    (ht : ∀ z f, ¬ (s.val = .int z ∧ t.val = .flt f) ∧ ¬ (s.val = .flt f ∧ t.val = .int z)) :
    s = t ∧ s.str = t.str ∧ s.hash hashStr = t.hash hashStr := by
  have hval : s = t := by
    have h1 := (Selector.eq_iff_key s t).1 h
    simp only [Selector.key, EmbeddingLike.apply_eq_iff_eq, Prod.mk.injEq] at h1
    obtain ⟨ha, ho, hv⟩ := h1
    have hv' : s.val = t.val := by
      revert hv ht
      cases hs : s.val <;> cases ht' : t.val <;>
        simp [Val.key, Sum.inlₗ, Sum.inrₗ]
      rename_i f g
      intro hfg
      exact Flt.toRat_inj hfg
    cases s; cases t
    simp only [Selector.mk.injEq] at *
    exact ⟨ha, Op.value_inj ho, hv'⟩
  subst hval
  exact ⟨rfl, rfl, rfl⟩

/-- `Selector("a", =, 1)` and `Selector("a", =, 1.0)` are equal but print differently, so for a hash that separates the
two printed forms a set can hold both. -/
theorem C03_fails : ∃ s t : Selector, s.eq t = true ∧ s.str ≠ t.str ∧
    ∀ hashStr : Str → Int, Function.Injective hashStr → s.hash hashStr ≠ t.hash hashStr :=
  ⟨⟨c!"a", .equal, .int 1⟩, ⟨c!"a", .equal, .flt (mkFlt 1 0)⟩, by decide +kernel, by decide +kernel,
    fun _ hi h => absurd (hi h) (by decide +kernel)⟩

/-! ## C04 order -/

/-- Selectors that meet in one sorted pattern are homogeneous when those with the same attribute and operator have values
of the same kind (both text or both numbers), as for a column of a data frame with a uniform type. -/
def Spec.Homogeneous (S : Selector → Prop) : Prop :=
  ∀ a b, S a → S b → a.attr = b.attr → a.op = b.op → (a.val.isStr = b.val.isStr)

/-- C04: on homogeneous selectors the six methods are one total order. See `C04_exact` for heterogeneous values, where
it is false (`C04_fails`). -/
theorem C04_homogeneous (S : Selector → Prop) (hS : Homogeneous S) :
    TotalOrder S Selector.eq Selector.ne Selector.lt Selector.gt Selector.le Selector.ge := by
  have hlt : ∀ a b, S a → S b → (a.lt b = true ↔ a.key < b.key) := fun a b ha hb => Selector.lt_iff_key (hS a b ha hb)
  constructor
  · intro a _; rw [Selector.eq_iff_key]
  · intro a b _ _; simp only [Selector.eq_iff_key]; exact Eq.symm
  · intro a b c _ _ _; simp only [Selector.eq_iff_key]; exact Eq.trans
  · intro a b _ _; exact Selector.ne_eq a b
  · intro a _; exact Selector.lt_irrefl a
  · intro a b c ha hb hc; rw [hlt a b ha hb, hlt b c hb hc, hlt a c ha hc]; exact lt_trans
  · intro a a' b b' ha ha' hb hb' h1 h2
    rw [Selector.eq_iff_key] at h1 h2
    rw [Bool.eq_iff_iff, hlt a b ha hb, hlt a' b' ha' hb', h1, h2]
  · intro a b ha hb
    have h1 := hlt a b ha hb
    have h2 := hlt b a hb ha
    have h3 := Selector.eq_iff_key a b
    rw [Selector.gt_eq]
    simp only [← Bool.not_eq_true, h1, h2, h3]
    rcases lt_trichotomy a.key b.key with h | h | h
    · left; exact ⟨h, h.ne, h.not_gt⟩
    · right; left; exact ⟨h.not_lt, h, h.not_gt⟩
    · right; right; exact ⟨h.not_gt, h.ne', h⟩
  · intro a b _ _; exact Selector.gt_eq a b
  · intro a b _ _; rw [Selector.gt_eq, Selector.le_eq]
  · intro a b _ _; exact Selector.ge_eq a b

/-- What holds of all selectors, heterogeneous ones included: equality is an equivalence, `<` is irreflexive and asymmetric,
and the other methods agree with `<` and `==`. -/
theorem C04_all (a b : Selector) :
    a.eq a = true ∧ a.eq b = b.eq a ∧ a.ne b = !a.eq b ∧ a.lt a = false ∧ ¬ (a.lt b = true ∧ b.lt a = true) ∧
    a.gt b = b.lt a ∧ a.le b = !a.gt b ∧ a.ge b = !a.lt b := by
  refine ⟨(Selector.eq_iff_key _ _).2 rfl, ?_, Selector.ne_eq a b, Selector.lt_irrefl a, ?_, Selector.gt_eq a b, ?_,
    Selector.ge_eq a b⟩
  · rw [Bool.eq_iff_iff, Selector.eq_iff_key, Selector.eq_iff_key, eq_comm]
  · rintro ⟨h1, h2⟩; rw [Selector.lt_asymm h1] at h2; cases h2
  · rw [Selector.gt_eq, Selector.le_eq]

/-- non-vacuity: text, integer and float values in one homogeneous set -/
example : Homogeneous (fun s => s ∈ [(⟨c!"a", .equal, .str c!"x"⟩ : Selector), ⟨c!"b", .less, .int 2⟩,
    ⟨c!"b", .less, .flt (mkFlt 25 (-1))⟩]) := by
  intro a b ha hb
  simp at ha hb
  rcases ha with rfl | rfl | rfl <;> rcases hb with rfl | rfl | rfl <;> simp [Val.isStr]

/-- Heterogeneous values: `<` is not transitive (9 < 10 < "5" < 9), and a text and the number it spells are neither ordered
nor equal. All these selectors are legal. -/
theorem C04_fails :
    (∃ a b c : Selector, Selector.legal a.op a.val = true ∧ Selector.legal b.op b.val = true ∧
      Selector.legal c.op c.val = true ∧ a.lt b = true ∧ b.lt c = true ∧ c.lt a = true) ∧
    (∃ a b : Selector, Selector.legal a.op a.val = true ∧ Selector.legal b.op b.val = true ∧
      a.lt b = false ∧ a.eq b = false ∧ a.gt b = false) :=
  ⟨⟨⟨c!"a", .equal, .int 9⟩, ⟨c!"a", .equal, .int 10⟩, ⟨c!"a", .equal, .str c!"5"⟩, by decide +kernel⟩,
   ⟨⟨c!"a", .equal, .int 5⟩, ⟨c!"a", .equal, .str c!"5"⟩, by decide +kernel⟩⟩

/-! ## C05 selector text round trip -/

/-- C05, exact characterisation: a legal selector is read back as an equal selector exactly when its attribute name has no
blank and, for a float value, its printed form shows a decimal point (two digits or more, or an exponent between -4 and 15:
`1e+16` and `1e-05` do not). -/
theorem C05_iff (s : Selector) (hl : Selector.legal s.op s.val = true) :
    (∃ t, Selector.generateFromStr s.str = .ok t ∧ t.eq s = true) ↔
    (' ' ∉ s.attr ∧ ∀ f, s.val = .flt f → (10 ≤ f.m.natAbs ∨ (-4 ≤ f.e ∧ f.e ≤ 15))) := by
  constructor
  · rintro ⟨t, h1, h2⟩
    have ha : t.attr = s.attr := by
      simp only [Selector.eq, Bool.and_eq_true, beq_iff_eq] at h2; exact h2.1.1
    have hb : ' ' ∉ s.attr := ha ▸ Selector.generateFromStr_attr h1
    refine ⟨hb, fun f hf => ?_⟩
    rw [← fltStr_point]
    by_contra hp
    rw [Selector.generateFromStr_of_no_blank s hb, hf, Selector.parseVal_flt_nopoint f hp] at h1
    simp only [Selector.mk?] at h1
    split at h1
    · cases h1
    · cases h1
      simp [Selector.eq, hf, Val.eq] at h2
  · rintro ⟨hb, hf⟩
    refine ⟨s, ?_, (Selector.eq_iff_key _ _).2 rfl⟩
    have hv : Selector.parseVal (Selector.valText s.val) = .ok s.val := by
      cases hv : s.val with
      | str x => exact Selector.parseVal_str x
      | int z => exact Selector.parseVal_int z
      | flt f => exact Selector.parseVal_flt f ((fltStr_point f).2 (hf f hv))
    rw [Selector.generateFromStr_of_no_blank s hb, hv]
    simp [Selector.mk?, hl]

/-- under the same conditions the very same fields come back -/
theorem C05_exact (s : Selector) (hl : Selector.legal s.op s.val = true) (hb : ' ' ∉ s.attr)
    (hf : ∀ f, s.val = .flt f → (10 ≤ f.m.natAbs ∨ (-4 ≤ f.e ∧ f.e ≤ 15))) :
    Selector.generateFromStr s.str = .ok s := by
  have hv : Selector.parseVal (Selector.valText s.val) = .ok s.val := by
    cases hv : s.val with
    | str x => exact Selector.parseVal_str x
    | int z => exact Selector.parseVal_int z
    | flt f => exact Selector.parseVal_flt f ((fltStr_point f).2 (hf f hv))
  rw [Selector.generateFromStr_of_no_blank s hb, hv]
  simp [Selector.mk?, hl]

/-- non-vacuity of C05: quotes, blanks, commas and separators inside a text value are harmless; so are -2.5e-07 and 0.0001 -/
example : Selector.generateFromStr (⟨c!"col", .notEqual, .str c!"it's, ' = x"⟩ : Selector).str
    = .ok ⟨c!"col", .notEqual, .str c!"it's, ' = x"⟩ :=
  C05_exact _ rfl (by decide) (by intro f h; cases h)
example : Selector.generateFromStr (⟨c!"c", .less, .flt (mkFlt (-25) (-8))⟩ : Selector).str
    = .ok ⟨c!"c", .less, .flt (mkFlt (-25) (-8))⟩ :=
  C05_exact _ rfl (by decide) (by intro f h; cases h; left; decide +kernel)

/-- the round trip fails for an attribute name with a blank and for the float 1e16 -/
theorem C05_fails :
    (∃ s : Selector, Selector.legal s.op s.val = true ∧ ¬ ∃ t, Selector.generateFromStr s.str = .ok t ∧ t.eq s = true) ∧
    (∃ s : Selector, Selector.legal s.op s.val = true ∧ ' ' ∉ s.attr ∧
      ¬ ∃ t, Selector.generateFromStr s.str = .ok t ∧ t.eq s = true) := by
  refine ⟨⟨⟨c!"my col", .equal, .int 1⟩, rfl, ?_⟩, ⟨⟨c!"a", .equal, .flt (mkFlt 1 16)⟩, by decide +kernel, by decide, ?_⟩⟩
  · rw [C05_iff _ rfl]; exact fun h => absurd h.1 (by decide)
  · rw [C05_iff _ (by decide +kernel)]
    intro h
    have := h.2 _ rfl
    revert this
    decide +kernel

end Verif

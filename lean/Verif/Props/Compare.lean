import Verif.Lemmas.Compare
import Verif.Props.Pattern
import Verif.Props.Subgroup
/-! C100: comparisons, membership, hashing and construction with objects of any type. -/
namespace Verif
namespace Compare

/-! ### what the theorems are about -/

/-- the kinds of objects that Python distinguishes in comparisons -/
inductive Kind
  | nothing | text | number | operator | selector | pattern | subgroup | object
  deriving DecidableEq

/-- the kind of an object -/
def kind : Any → Kind
  | .none => .nothing
  | .val (.str _) => .text
  | .val (.int _) => .number
  | .val (.flt _) => .number
  | .op _ => .operator
  | .sel _ => .selector
  | .pat _ => .pattern
  | .sub _ => .subgroup
  | .other _ => .object

/-- the classes of the library -/
def Library (k : Kind) : Prop := k = .operator ∨ k = .selector ∨ k = .pattern ∨ k = .subgroup

/-- the kinds with an order -/
def Ordered (k : Kind) : Prop := k = .text ∨ k = .number ∨ k = .operator ∨ k = .selector

instance (k : Kind) : Decidable (Library k) := by unfold Library; infer_instance
instance (k : Kind) : Decidable (Ordered k) := by unfold Ordered; infer_instance

/-- equality of two objects of the same kind, or of two objects that are not of the library (those of different kinds are different) -/
def equal : Any → Any → Bool
  | .op o, .op o' => decide (o = o')
  | .sel s, .sel t => s.eq t
  | .pat p, .pat q => p.eq q
  | .sub s, .sub t => s.eq t
  | .val v, .val w => v.eq w
  | .none, .none => true
  | .other i, .other j => decide (i = j)
  | _, _ => false

/-- `==` is defined between the objects -/
def Comparable (a b : Any) : Prop := Library (kind a) ∨ Library (kind b) → kind a = kind b

/-- every order comparison between objects of these kinds -/
def IsOrder (c : Cmp) : Prop := c = .lt ∨ c = .gt ∨ c = .le ∨ c = .ge

/-! ### lemmas -/

theorem op_eq (o o' : Op) : o.eq o' = decide (o = o') := by cases o <;> cases o' <;> rfl
theorem op_ne (o o' : Op) : o.ne o' = !decide (o = o') := by cases o <;> cases o' <;> rfl

theorem compare_eq (a b : Any) :
    compare .eq a b = if (Library (kind a) ∨ Library (kind b)) ∧ kind a ≠ kind b then .error .typeError else .ok (equal a b) := by
  rcases a with _ | (s | z | f) | o | s | p | s | i <;> rcases b with _ | (s' | z' | f') | o' | s' | p' | s' | j
  all_goals first
    | (simp [compare, method, valMethod, Cmp.swap, Library, kind, equal, op_eq, Val.isStr, Val.eq]; done)
    | skip
  by_cases h : i = j
  · subst h; simp [compare, method, Library, kind, equal]
  · simp [compare, method, Cmp.swap, Library, kind, equal, h, Ne.symm h]

theorem compare_ne (a b : Any) : compare .ne a b = (compare .eq a b).map (!·) := by
  rcases a with _ | (s | z | f) | o | s | p | s | i <;> rcases b with _ | (s' | z' | f') | o' | s' | p' | s' | j
  all_goals first
    | (simp [compare, method, valMethod, Cmp.swap, op_eq, op_ne, Val.isStr, Val.eq, Except.map, Selector.ne_eq, Pattern.ne_eq, C55_ne]; done)
    | skip
  by_cases h : i = j
  · subst h; simp [compare, method, Except.map]
  · simp [compare, method, Cmp.swap, h, Ne.symm h, Except.map]

theorem compare_order (c : Cmp) (hc : IsOrder c) (a b : Any) :
    (kind a = kind b ∧ Ordered (kind a) → ∃ r, compare c a b = .ok r) ∧
    (¬ (kind a = kind b ∧ Ordered (kind a)) → compare c a b = .error .typeError) := by
  rcases hc with rfl | rfl | rfl | rfl <;>
  rcases a with _ | (s | z | f) | o | s | p | s | i <;> rcases b with _ | (s' | z' | f') | o' | s' | p' | s' | j <;>
    simp [compare, method, valMethod, Cmp.swap, kind, Ordered, Val.isStr, Val.lt?, Val.le?, Except.toOption]

theorem equal_symm {a b : Any} (h : equal a b = true) : equal b a = true := by
  rcases a with _ | (s | z | f) | o | s | p | s | i <;> rcases b with _ | (s' | z' | f') | o' | s' | p' | s' | j <;>
    simp only [equal, Val.eq, beq_iff_eq, decide_eq_true_eq, Pattern.eq_iff_keys, Bool.false_eq_true] at h ⊢
  all_goals first
    | exact h.symm
    | exact (C55_equivalence _ _ ‹Subgroup›).2.2.1 h
    | (rw [(C04_all _ _).2.1]; exact h)

theorem equal_comm (a b : Any) : equal a b = equal b a := Bool.eq_iff_iff.2 ⟨equal_symm, equal_symm⟩

theorem equal_refl (a : Any) : equal a a = true := by
  rcases a with _ | (s | z | f) | o | s | p | s | i <;> simp [equal, Val.eq]
  · exact (C04_all s s).1
  · rw [Pattern.eq_iff_keys]
  · exact (C55_equivalence s s s).1

theorem compare_swap (c : Cmp) (hc : IsOrder c) (a b : Any) : compare c a b = compare c.swap b a := by
  rcases hc with rfl | rfl | rfl | rfl <;>
  rcases a with _ | (s | z | f) | o | s | p | s | i <;> rcases b with _ | (s' | z' | f') | o' | s' | p' | s' | j <;>
    first
    | rfl
    | (simp [compare, method, valMethod, Cmp.swap, Val.isStr, Selector.gt_eq, Selector.ge_eq, Selector.le_eq]; done)
    | (cases o <;> cases o' <;> rfl)

theorem compare_ok {a b : Any} (h : Comparable a b) : compare .eq a b = .ok (equal a b) := by
  rw [compare_eq, if_neg (fun h' => h'.2 (h h'.1))]

theorem compare_error {a b : Any} (h : ¬ Comparable a b) : compare .eq a b = .error .typeError := by
  rw [compare_eq, if_pos]
  unfold Comparable at h
  push Not at h
  exact h

theorem comparable_comm (a b : Any) : Comparable a b ↔ Comparable b a := by
  unfold Comparable
  constructor <;> intro h h' <;> exact (h h'.symm).symm

/-! ### comparisons -/

/-- C100: `a == b` is defined exactly when both objects are of the same class of the library or neither is of the library, and otherwise a `TypeError`, also when the library object is on the right. -/
theorem C100_eq (a b : Any) :
    (Comparable a b → compare .eq a b = .ok (equal a b)) ∧ (¬ Comparable a b → compare .eq a b = .error .typeError) := ⟨compare_ok, compare_error⟩

/-- C100: `==` is reflexive and has the same outcome, a value or the error, with exchanged operands; `!=` is its negation, with the same errors. -/
theorem C100_laws (a b : Any) :
    compare .eq a a = .ok true ∧ compare .eq a b = compare .eq b a ∧ compare .ne a b = (compare .eq a b).map (!·) := by
  refine ⟨?_, ?_, compare_ne a b⟩
  · rw [compare_ok (fun _ => rfl), equal_refl]
  · by_cases h : Comparable a b
    · rw [compare_ok h, compare_ok ((comparable_comm a b).1 h), equal_comm]
    · rw [compare_error h, compare_error (fun h' => h ((comparable_comm a b).2 h'))]

/-- C100: the four order comparisons are defined exactly between two texts, two numbers, two operators or two selectors (a `TypeError` otherwise: two patterns have no order), and `a < b` is `b > a`, `a <= b` is `b >= a`. -/
theorem C100_order (c : Cmp) (hc : IsOrder c) (a b : Any) :
    ((∃ r, compare c a b = .ok r) ↔ kind a = kind b ∧ Ordered (kind a)) ∧
    (¬ (kind a = kind b ∧ Ordered (kind a)) → compare c a b = .error .typeError) ∧
    compare c a b = compare c.swap b a := by
  obtain ⟨h1, h2⟩ := compare_order c hc a b
  refine ⟨⟨?_, h1⟩, h2, compare_swap c hc a b⟩
  rintro ⟨r, hr⟩
  by_contra hn
  rw [h2 hn] at hr
  cases hr

/-- C100: on two objects of the same class the comparisons are the ones of the class. -/
theorem C100_same (s t : Selector) (p q : Pattern) (g k : Subgroup) (v w : Val) :
    compare .eq (.sel s) (.sel t) = .ok (s.eq t) ∧ compare .lt (.sel s) (.sel t) = .ok (s.lt t) ∧ compare .le (.sel s) (.sel t) = .ok (s.le t) ∧
    compare .eq (.pat p) (.pat q) = .ok (p.eq q) ∧ compare .eq (.sub g) (.sub k) = .ok (g.eq k) ∧ compare .eq (.val v) (.val w) = .ok (v.eq w) :=
  ⟨rfl, rfl, rfl, rfl, rfl, compare_ok (fun h => by cases v <;> cases w <;> simp [Library, kind] at h ⊢)⟩

/-- the operator with the sign of a comparison -/
def Cmp.sign : Cmp → Op
  | .eq => .equal | .ne => .notEqual | .lt => .less | .gt => .greater | .le => .lessOrEqual | .ge => .greaterOrEqual

/-- C100: two operators are compared by their positions in the enumeration, two numbers by their values, two texts character by character, and all six comparisons of two selectors are those of the class. -/
theorem C100_values (c : Cmp) (o o' : Op) (v w : Val) (x y : Str) (s t : Selector) (hv : v.isStr = false) (hw : w.isStr = false) :
    (compare c (.op o) (.op o') = .ok true ↔ Spec.opMeaning c.sign o.value o'.value) ∧
    (compare c (.val v) (.val w) = .ok true ↔ Spec.opMeaning c.sign v.num w.num) ∧
    (compare c (.val (.str x)) (.val (.str y)) = .ok true ↔ Spec.opMeaning c.sign x y) ∧
    compare c (.sel s) (.sel t) = .ok (match c with | .eq => s.eq t | .ne => s.ne t | .lt => s.lt t | .gt => s.gt t | .le => s.le t | .ge => s.ge t) := by
  have hle : ∀ a b : Str, (strLt a b || a == b) = true ↔ a ≤ b := by
    intro a b
    simp [strLt_iff, le_iff_lt_or_eq]
  refine ⟨?_, ?_, ?_, ?_⟩
  · cases c <;> simp [compare, method, Spec.opMeaning, Cmp.sign, Op.eq, Op.ne, Op.lt, Op.gt, Op.le, Op.ge]
  · cases v <;> simp [Val.isStr] at hv <;> cases w <;> simp [Val.isStr] at hw <;> cases c <;> simp [compare, method, valMethod, Val.isStr, Spec.opMeaning, Cmp.sign, Val.eq, Val.lt?, Val.le?, Except.toOption]
  · cases c <;> simp [compare, method, valMethod, Val.isStr, Spec.opMeaning, Cmp.sign, Val.eq, Val.lt?, Val.le?, Except.toOption, strLt_iff, hle, le_iff_lt_or_eq]
  · cases c <;> simp only [compare, method]

/-! ### membership in lists -/

/-- C100: `x in l` looks at the elements in order: it is true if an equal element comes before every element that cannot be compared with `x`, a `TypeError` if one that cannot comes first, and false if there is neither. -/
theorem C100_in (x : Any) (l : List Any) :
    (inList x l = .ok true ↔ ∃ pre a post, l = pre ++ a :: post ∧ Comparable a x ∧ equal a x = true ∧ ∀ y ∈ pre, Comparable y x ∧ equal y x = false) ∧
    (inList x l = .error .typeError ↔ ∃ pre a post, l = pre ++ a :: post ∧ ¬ Comparable a x ∧ ∀ y ∈ pre, Comparable y x ∧ equal y x = false) ∧
    (inList x l = .ok false ↔ ∀ y ∈ l, Comparable y x ∧ equal y x = false) ∧
    (inList x l = .ok true ∨ inList x l = .error .typeError ∨ inList x l = .ok false) := by
  induction l with
  | nil => simp [inList]
  | cons a l ih =>
    obtain ⟨i1, i2, i3, i4⟩ := ih
    by_cases hc : Comparable a x
    · cases he : equal a x
      · have e : inList x (a :: l) = inList x l := by simp only [inList, compare_ok hc, he]
        rw [e]
        refine ⟨i1.trans ?_, i2.trans ?_, i3.trans ?_, i4⟩
        · constructor
          · rintro ⟨pre, b, post, rfl, h1, h2, h3⟩
            exact ⟨a :: pre, b, post, rfl, h1, h2, by simpa [hc, he] using h3⟩
          · rintro ⟨pre, b, post, h0, h1, h2, h3⟩
            cases pre with
            | nil => simp only [List.nil_append, List.cons.injEq] at h0; rw [← h0.1, he] at h2; cases h2
            | cons c pre =>
              simp only [List.cons_append, List.cons.injEq] at h0
              exact ⟨pre, b, post, h0.2, h1, h2, fun y hy => h3 y (by simp [hy])⟩
        · constructor
          · rintro ⟨pre, b, post, rfl, h1, h3⟩
            exact ⟨a :: pre, b, post, rfl, h1, by simpa [hc, he] using h3⟩
          · rintro ⟨pre, b, post, h0, h1, h3⟩
            cases pre with
            | nil => simp only [List.nil_append, List.cons.injEq] at h0; rw [← h0.1] at h1; exact absurd hc h1
            | cons c pre =>
              simp only [List.cons_append, List.cons.injEq] at h0
              exact ⟨pre, b, post, h0.2, h1, fun y hy => h3 y (by simp [hy])⟩
        · simp [hc, he]
      · have e : inList x (a :: l) = .ok true := by simp only [inList, compare_ok hc, he]
        rw [e]
        refine ⟨⟨fun _ => ⟨[], a, l, rfl, hc, he, by simp⟩, fun _ => rfl⟩, ⟨(fun h => by cases h), ?_⟩, ⟨(fun h => by cases h), fun h => ?_⟩, Or.inl rfl⟩
        · rintro ⟨pre, b, post, h0, h1, h3⟩
          cases pre with
          | nil => simp only [List.nil_append, List.cons.injEq] at h0; rw [← h0.1] at h1; exact absurd hc h1
          | cons c pre =>
            simp only [List.cons_append, List.cons.injEq] at h0
            have := (h3 c (by simp)).2
            rw [← h0.1, he] at this; cases this
        · have := (h a (by simp)).2; rw [he] at this; cases this
    · have e : inList x (a :: l) = .error .typeError := by simp only [inList, compare_error hc]
      rw [e]
      refine ⟨⟨(fun h => by cases h), ?_⟩, ⟨fun _ => ⟨[], a, l, rfl, hc, by simp⟩, fun _ => rfl⟩, ⟨(fun h => by cases h), fun h => absurd (h a (by simp)).1 hc⟩, Or.inr (Or.inl rfl)⟩
      rintro ⟨pre, b, post, h0, h1, h2, h3⟩
      cases pre with
      | nil => simp only [List.nil_append, List.cons.injEq] at h0; rw [← h0.1] at h1; exact absurd h1 hc
      | cons c pre =>
        simp only [List.cons_append, List.cons.injEq] at h0
        exact absurd (h0.1 ▸ (h3 c (by simp)).1) hc

/-! ### hashing, sets and dictionaries -/

/-- C100: patterns and subgroups cannot be put in sets nor be keys, whatever the keys there are; all other objects can be hashed. -/
theorem C100_hash (hs : Str → Int) (hn : Rat → Int) (ho : Nat → Int) (h0 : Int) (x : Any) (keys : List Any) :
    ((∃ n, hash hs hn ho h0 x = .ok n) ↔ kind x ≠ .pattern ∧ kind x ≠ .subgroup) ∧
    (kind x = .pattern ∨ kind x = .subgroup → inKeys (hash hs hn ho h0) keys x = .error .typeError) := by
  rcases x with _ | (s | z | f) | o | s | p | s | i <;> simp [hash, kind, inKeys]

/-- C100: a selector and its own text cannot be keys of one dictionary or set, nor an operator and the number of its position: whatever the hash functions, the second one put in or looked up raises a `TypeError`. -/
theorem C100_clash (hs : Str → Int) (hn : Rat → Int) (ho : Nat → Int) (h0 : Int) (s : Selector) (o : Op) :
    inKeys (hash hs hn ho h0) [.sel s] (.val (.str s.str)) = .error .typeError ∧
    inKeys (hash hs hn ho h0) [.val (.str s.str)] (.sel s) = .error .typeError ∧
    buildKeys (hash hs hn ho h0) [] [.sel s, .val (.str s.str)] = .error .typeError ∧
    inKeys (hash hs hn ho h0) [.op o] (.val (.int o.value)) = .error .typeError ∧
    inKeys (hash hs hn ho h0) [.val (.int o.value)] (.op o) = .error .typeError := by
  simp [inKeys, probe, hash, buildKeys, compare, method, Cmp.swap]

/-- C100: among keys that can all be compared with `x`, whatever the hash functions, looking up `x` does not fail, finds nothing that is not equal, and finds every key that is equal and has the same hash. -/
theorem C100_keys (hs : Str → Int) (hn : Rat → Int) (ho : Nat → Int) (h0 : Int) (x : Any) (n : Int) (hx : hash hs hn ho h0 x = .ok n) (keys : List Any)
    (hk : ∀ k ∈ keys, (∃ m, hash hs hn ho h0 k = .ok m) ∧ Comparable k x) :
    ∃ r, inKeys (hash hs hn ho h0) keys x = .ok r ∧ (r = true ↔ ∃ k ∈ keys, hash hs hn ho h0 k = .ok n ∧ equal k x = true) := by
  simp only [inKeys, hx]
  induction keys with
  | nil => exact ⟨false, rfl, by simp⟩
  | cons k keys ih =>
    obtain ⟨r, h1, h2⟩ := ih (fun k hk' => hk k (by simp [hk']))
    obtain ⟨⟨m, hm⟩, hc⟩ := hk k (by simp)
    simp only [probe, hm, compare_ok hc, List.mem_cons, exists_eq_or_imp, Except.ok.injEq]
    by_cases hmn : m = n
    · cases he : equal k x
      · exact ⟨r, by simpa [hmn] using h1, by rw [h2]; simp⟩
      · exact ⟨true, by simp [hmn], by simp [hmn]⟩
    · exact ⟨r, by simpa [hmn] using h1, by rw [h2]; simp [hmn]⟩

theorem buildKeys_spec (hs : Str → Int) (hn : Rat → Int) (ho : Nat → Int) (h0 : Int) (l keys : List Any)
    (hl : ∀ x ∈ keys ++ l, ∃ n, hash hs hn ho h0 x = .ok n) (hc : ∀ x ∈ keys ++ l, ∀ y ∈ keys ++ l, Comparable x y)
    (hp : keys.Pairwise (fun a b => ¬ (hash hs hn ho h0 a = hash hs hn ho h0 b ∧ equal a b = true))) :
    ∃ more, buildKeys (hash hs hn ho h0) keys l = .ok (keys ++ more) ∧ more.Sublist l ∧
      (∀ x ∈ l, ∃ k ∈ keys ++ more, hash hs hn ho h0 k = hash hs hn ho h0 x ∧ equal k x = true) ∧
      (keys ++ more).Pairwise (fun a b => ¬ (hash hs hn ho h0 a = hash hs hn ho h0 b ∧ equal a b = true)) := by
  induction l generalizing keys with
  | nil => exact ⟨[], by simp [buildKeys], List.Sublist.refl _, by simp, by simpa using hp⟩
  | cons x l ih =>
    obtain ⟨n, hx⟩ := hl x (by simp)
    obtain ⟨r, h1, h2⟩ := C100_keys hs hn ho h0 x n hx keys (fun k hk => ⟨hl k (by simp [hk]), hc k (by simp [hk]) x (by simp)⟩)
    cases r with
    | true =>
      obtain ⟨more, g1, g2, g3, g4⟩ := ih keys (fun y hy => hl y (by simp at hy ⊢; tauto)) (fun y hy z hz => hc y (by simp at hy ⊢; tauto) z (by simp at hz ⊢; tauto)) hp
      refine ⟨more, by simp only [buildKeys, h1]; exact g1, g2.cons _, ?_, g4⟩
      intro y hy
      rcases List.mem_cons.1 hy with rfl | hy
      · obtain ⟨k, k1, k2, k3⟩ := h2.1 rfl
        exact ⟨k, by simp [k1], by rw [k2, hx], k3⟩
      · exact g3 y hy
    | false =>
      have hno : ∀ k ∈ keys, ¬ (hash hs hn ho h0 k = .ok n ∧ equal k x = true) := fun k hk hh => by
        have := h2.2 ⟨k, hk, hh⟩
        cases this
      obtain ⟨more, g1, g2, g3, g4⟩ := ih (keys ++ [x]) (fun y hy => hl y (by simp at hy ⊢; tauto)) (fun y hy z hz => hc y (by simp at hy ⊢; tauto) z (by simp at hz ⊢; tauto))
        (by
          rw [List.pairwise_append]
          refine ⟨hp, by simp, fun a ha b hb => ?_⟩
          rw [List.mem_singleton] at hb
          subst hb
          rw [hx]
          exact hno a ha)
      refine ⟨x :: more, by simp only [buildKeys, h1]; rw [g1]; simp, g2.cons_cons _, ?_, by simpa using g4⟩
      intro y hy
      rcases List.mem_cons.1 hy with rfl | hy
      · exact ⟨y, by simp, rfl, equal_refl y⟩
      · obtain ⟨k, k1, k2⟩ := g3 y hy
        exact ⟨k, by simpa using k1, k2⟩

/-- C100: `set(l)` of hashable objects that can all be compared with each other does not fail, whatever the hash functions: it keeps elements of `l` in their order, no two of them equal with the same hash, and every
element of `l` is equal to one that is kept and has the same hash. -/
theorem C100_set (hs : Str → Int) (hn : Rat → Int) (ho : Nat → Int) (h0 : Int) (l : List Any)
    (hl : ∀ x ∈ l, ∃ n, hash hs hn ho h0 x = .ok n) (hc : ∀ x ∈ l, ∀ y ∈ l, Comparable x y) :
    ∃ keys, buildKeys (hash hs hn ho h0) [] l = .ok keys ∧ keys.Sublist l ∧
      (∀ x ∈ l, ∃ k ∈ keys, hash hs hn ho h0 k = hash hs hn ho h0 x ∧ equal k x = true) ∧
      keys.Pairwise (fun a b => ¬ (hash hs hn ho h0 a = hash hs hn ho h0 b ∧ equal a b = true)) := by
  simpa using buildKeys_spec hs hn ho h0 l [] (by simpa using hl) (by simpa using hc) List.Pairwise.nil

/-- the hypotheses are met: a set of three selectors, two of them equal -/
example : buildKeys (hash (fun s => s.length) (fun q => q.num) (fun i => i) 0) [] [.sel ⟨c!"a", .equal, .int 5⟩, .sel ⟨c!"b", .equal, .int 5⟩, .sel ⟨c!"a", .equal, .int 5⟩] =
    .ok [.sel ⟨c!"a", .equal, .int 5⟩, .sel ⟨c!"b", .equal, .int 5⟩] := by decide +kernel

/-! ### `Pattern(list)` -/

/-- two objects that `<` can compare -/
def Sortable (a b : Any) : Prop := kind a = kind b ∧ Ordered (kind a)

theorem sortable_comparable {a b : Any} (h : Sortable a b) : Comparable a b := fun _ => h.1

theorem dedupE_ok (l acc : List Any) (h : ∀ x ∈ l, ∀ y ∈ acc ++ l, Comparable y x) : ∃ p, dedupE acc l = .ok p := by
  induction l generalizing acc with
  | nil => exact ⟨acc.reverse, by cases acc <;> rfl⟩
  | cons x l ih =>
    cases acc with
    | nil =>
      unfold dedupE
      refine ih [x] (fun z hz y hy => h z (by simp [hz]) y ?_)
      simpa using hy
    | cons y acc =>
      unfold dedupE
      rw [compare_ne, compare_ok (h x (by simp) y (by simp))]
      cases hq : equal y x
      · simp only [Except.map, Bool.not_false]
        exact ih _ (fun z hz w hw => h z (by simp [hz]) w (by simp at hw ⊢; tauto))
      · simp only [Except.map, Bool.not_true]
        exact ih _ (fun z hz w hw => h z (by simp [hz]) w (by simp at hw ⊢; tauto))

theorem lt_ok {x y : Any} (r : Bool) (h : compare .lt x y = .ok r) : Sortable x y := by
  by_contra hn
  rw [(compare_order .lt (Or.inl rfl) x y).2 hn] at h
  cases h

theorem lt_value {x y : Any} (h : Sortable x y) : compare .lt x y = .ok (match compare .lt x y with | .ok r => r | .error _ => false) := by
  obtain ⟨r, hr⟩ := (compare_order .lt (Or.inl rfl) x y).1 h
  rw [hr]

/-- C100: `Pattern(l)` does not check the types of the elements. It succeeds exactly for lists of at most one element, whatever it is, and for lists of selectors, of texts, of numbers or of operators only; it raises a `TypeError` for all
others: a selector and an object of another type are always refused together, in any position. -/
theorem C100_pattern (l : List Any) :
    ((∃ p, newAny l = .ok p) ↔ l.length ≤ 1 ∨ ∀ x ∈ l, ∀ y ∈ l, Sortable x y) ∧
    ((¬ ∃ p, newAny l = .ok p) → newAny l = .error .typeError) ∧
    (∀ s x, Any.sel s ∈ l → x ∈ l → kind x ≠ .selector → newAny l = .error .typeError) := by
  have key : ((∃ p, newAny l = .ok p) ↔ l.length ≤ 1 ∨ ∀ x ∈ l, ∀ y ∈ l, Sortable x y) := by
    constructor
    · rintro ⟨p, hp⟩
      by_cases hl : l.length ≤ 1
      · exact Or.inl hl
      right
      unfold newAny at hp
      cases hs : sortE (compare .lt) l with
      | error e => rw [hs] at hp; cases hp
      | ok s =>
        exact sortE_related (R := Sortable) (fun x y r => lt_ok r) (fun x y h => ⟨h.1.symm, h.1 ▸ h.2⟩) (fun x y z h g => ⟨h.1.trans g.1, h.2⟩) hs (by omega)
    · rintro (hl | hl)
      · match l, hl with
        | [], _ => exact ⟨[], rfl⟩
        | [a], _ => exact ⟨[a], rfl⟩
      · have hsort := sortE_ok (S := fun x => x ∈ l) (lt := compare .lt) (q := fun x y => match compare .lt x y with | .ok r => r | .error _ => false)
          (fun x y hx hy => lt_value (hl x hx y hy)) l (fun x hx => hx)
        have hmem := (pySort_map (r := id) (lt := fun x y => match compare .lt x y with | .ok r => r | .error _ => false)
          (lt' := fun x y => match compare .lt x y with | .ok r => r | .error _ => false) (S := fun x => x ∈ l) (fun _ _ _ _ => rfl) l (fun x hx => hx)).2
        unfold newAny
        rw [hsort]
        exact dedupE_ok _ [] (fun x hx y hy => sortable_comparable (hl y (hmem y (by simpa using hy)) x (hmem x hx)))
  have herr : (¬ ∃ p, newAny l = .ok p) → newAny l = .error .typeError := by
    intro hn
    unfold newAny at hn ⊢
    cases hs : sortE (compare .lt) l with
    | error e =>
      refine congrArg Except.error (sortE_error (E := fun e => e = .typeError) ?_ hs)
      intro x y e he
      by_cases hk : kind x = kind y ∧ Ordered (kind x)
      · obtain ⟨r, hr⟩ := (compare_order .lt (Or.inl rfl) x y).1 hk
        rw [hr] at he; cases he
      · rw [(compare_order .lt (Or.inl rfl) x y).2 hk] at he; cases he; rfl
    | ok s =>
      exfalso
      rw [hs] at hn
      refine hn (dedupE_ok s [] ?_)
      by_cases hl : l.length ≤ 1
      · match l, hl with
        | [], _ => cases hs; simp
        | [a], _ =>
          cases hs
          intro x hx y hy
          simp only [List.mem_singleton, List.nil_append] at hx hy
          rw [hx, hy]; exact fun _ => rfl
      · have hrel := sortE_related (R := Sortable) (fun x y r => lt_ok r) (fun x y h => ⟨h.1.symm, h.1 ▸ h.2⟩) (fun x y z h g => ⟨h.1.trans g.1, h.2⟩) hs (by omega)
        have hsort := sortE_ok (S := fun x => x ∈ l) (lt := compare .lt) (q := fun x y => match compare .lt x y with | .ok r => r | .error _ => false)
          (fun x y hx hy => lt_value (hrel x hx y hy)) l (fun x hx => hx)
        have hmem := (pySort_map (r := id) (lt := fun x y => match compare .lt x y with | .ok r => r | .error _ => false)
          (lt' := fun x y => match compare .lt x y with | .ok r => r | .error _ => false) (S := fun x => x ∈ l) (fun _ _ _ _ => rfl) l (fun x hx => hx)).2
        rw [hsort] at hs
        cases hs
        exact fun x hx y hy => sortable_comparable (hrel y (hmem y (by simpa using hy)) x (hmem x hx))
  refine ⟨key, herr, ?_⟩
  intro s x hs hx hk
  refine herr (fun h => ?_)
  rcases key.1 h with h1 | h1
  · match l, h1 with
    | [a], _ =>
      simp only [List.mem_singleton] at hs hx
      rw [hx, ← hs] at hk; exact hk rfl
  · exact hk (h1 _ hs _ hx).1.symm

theorem dedupE_sels (l acc : List Selector) : dedupE (acc.map .sel) (l.map .sel) = .ok ((Pattern.dedupLoop acc l).map .sel) := by
  induction l generalizing acc with
  | nil => cases acc <;> simp [dedupE, Pattern.dedupLoop]
  | cons x l ih =>
    cases acc with
    | nil => simpa [dedupE, Pattern.dedupLoop] using ih [x]
    | cons y acc =>
      simp only [List.map_cons, dedupE, Pattern.dedupLoop, compare, method]
      cases hq : y.ne x
      · simpa using ih (y :: acc)
      · simpa using ih (x :: y :: acc)

theorem bisect_sels (p : Pattern) (s : Selector) : bisectE (leftE (p.sels.map .sel) (.sel s)) 0 (p.sels.map Any.sel).length = .ok (p.index s) := by
  unfold Pattern.index bisectLeft
  rw [List.length_map]
  refine bisectE_ok _ _ 0 rfl (fun i _ hi => ?_)
  simp [leftE, List.getElem?_eq_getElem hi, compare, method]

/-- C100: with selectors only, the constructor and the methods of patterns do what the other properties say (C06, C07). -/
theorem C100_pattern_selectors (l : List Selector) (p : Pattern) (s : Selector) :
    newAny (l.map .sel) = .ok ((Pattern.new l).sels.map .sel) ∧
    addAny (p.sels.map .sel) (.sel s) = .ok ((p.add s).sels.map .sel) ∧
    removeAny (p.sels.map .sel) (.sel s) = .ok ((p.remove s).sels.map .sel) ∧
    containsAny (p.sels.map .sel) (.sel s) = .ok (p.contains s) := by
  refine ⟨?_, ?_, ?_, ?_⟩
  · have h1 := sortE_ok (S := fun x => ∃ s, x = Any.sel s) (lt := compare .lt)
      (q := fun x y => match x, y with | .sel s, .sel t => s.lt t | _, _ => false) (by rintro x y ⟨s, rfl⟩ ⟨t, rfl⟩; rfl) (l.map .sel) (by simp)
    have h2 := (pySort_map (r := Any.sel) (lt := Selector.lt) (lt' := fun x y => match x, y with | .sel s, .sel t => s.lt t | _, _ => false)
      (S := fun _ => True) (fun _ _ _ _ => rfl) l (fun _ _ => trivial)).1
    unfold newAny
    rw [h1, h2]
    exact dedupE_sels _ []
  · simp only [addAny, bisect_sels]
    simp only [List.length_map, Pattern.add]
    by_cases hi : p.index s = p.sels.length
    · simp [hi]
    · rw [if_neg hi, if_neg hi, List.getElem?_map]
      cases ht : p.sels[p.index s]? with
      | none => rfl
      | some t =>
        simp only [Option.map_some, compare, method]
        cases hn : t.ne s
        · simp
        · simp [insertIdx_map]
  · simp only [removeAny, bisect_sels, Pattern.remove, List.getElem?_map]
    cases ht : p.sels[p.index s]? with
    | none => rfl
    | some t =>
      simp only [Option.map_some, compare, method]
      cases hn : t.eq s
      · simp
      · simp [List.eraseIdx_map]
  · simp only [containsAny, List.map_eq_nil_iff, Pattern.contains]
    by_cases h0 : p.sels = []
    · simp [h0]
    · rw [if_neg h0, if_neg (by simpa using h0), bisect_sels]
      simp only [List.getElem?_map]
      cases ht : p.sels[p.index s]? with
      | none => rfl
      | some t => rfl

/-- C100: `add_selector`, `remove_selector` and `in` refuse an object that is not a selector; in a pattern without selectors (`Pattern` accepts one) they refuse a selector too, unless it is empty. -/
theorem C100_methods (p : List Any) (x : Any) :
    (kind x ≠ .selector → addAny p x = .error .typeError ∧ removeAny p x = .error .typeError ∧ containsAny p x = .error .typeError) ∧
    (p ≠ [] → (∀ y ∈ p, kind y ≠ .selector) → addAny p x = .error .typeError ∧ removeAny p x = .error .typeError ∧ containsAny p x = .error .typeError) := by
  have h1 : kind x ≠ .selector → addAny p x = .error .typeError ∧ removeAny p x = .error .typeError ∧ containsAny p x = .error .typeError := by
    intro h
    rcases x with _ | (s | z | f) | o | s | q | s | i <;> first | exact ⟨rfl, rfl, rfl⟩ | exact absurd rfl h
  refine ⟨h1, fun hp hy => ?_⟩
  by_cases hx : kind x = .selector
  · rcases x with _ | (s | z | f) | o | s | q | s | i <;> first | (cases hx; done) | skip
    have hlen : 0 < p.length := List.length_pos_iff.2 hp
    have hb : bisectE (leftE p (.sel s)) 0 p.length = .error .typeError := by
      rw [bisectE, dif_pos hlen]
      have hm : (0 + p.length) / 2 < p.length := by omega
      have : leftE p (.sel s) ((0 + p.length) / 2) = .error .typeError := by
        simp only [leftE, List.getElem?_eq_getElem hm]
        exact (compare_order .lt (Or.inl rfl) _ _).2 (fun h => hy _ (List.getElem_mem hm) h.1)
      rw [this]
    simp only [addAny, removeAny, containsAny, hb, if_neg hp, and_self]
  · exact h1 hx

/-- C100: `Subgroup(d, t)` accepts a pattern and a selector only; `is_refinement` of a pattern (of a subgroup) needs a pattern (a subgroup). -/
theorem C100_subgroup (d t x : Any) (p : Pattern) (g : Subgroup) (b : Bool) :
    ((∃ s, newSubgroup d t = .ok s) ↔ kind d = .pattern ∧ kind t = .selector) ∧
    (¬ (kind d = .pattern ∧ kind t = .selector) → newSubgroup d t = .error .typeError) ∧
    (∀ q s, d = .pat q → t = .sel s → newSubgroup d t = .ok ⟨q, s⟩) ∧
    ((∃ r, patRefinement p x b = .ok r) ↔ kind x = .pattern) ∧ ((∃ r, subRefinement g x b = .ok r) ↔ kind x = .subgroup) ∧
    (∀ q, patRefinement p (.pat q) b = .ok (p.isRefinement q b)) ∧ (∀ k, subRefinement g (.sub k) b = .ok (g.isRefinement k b)) ∧
    (kind x ≠ .pattern → patRefinement p x b = .error .attributeError) ∧ (kind x ≠ .subgroup → subRefinement g x b = .error .attributeError) := by
  refine ⟨?_, ?_, ?_, ?_, ?_, fun q => by simp only [patRefinement], fun k => by simp only [subRefinement], ?_, ?_⟩
  · rcases d with _ | (s | z | f) | o | s | q | s | i <;> rcases t with _ | (s' | z' | f') | o' | s' | p' | s' | j <;> simp [newSubgroup, kind]
  · rcases d with _ | (s | z | f) | o | s | q | s | i <;> rcases t with _ | (s' | z' | f') | o' | s' | p' | s' | j <;> simp [newSubgroup, kind]
  · rintro q s rfl rfl; rfl
  · rcases x with _ | (s | z | f) | o | s | q | s | i <;> simp [patRefinement, kind]
  · rcases x with _ | (s | z | f) | o | s | q | s | i <;> simp [subRefinement, kind]
  · rcases x with _ | (s | z | f) | o | s | q | s | i <;> simp [patRefinement, kind]
  · rcases x with _ | (s | z | f) | o | s | q | s | i <;> simp [subRefinement, kind]

/-- the hypotheses are met: a selector among texts, a pattern in a set, a list with an object of another type before and after -/
example : compare .eq (.val (.int 5)) (.sel ⟨c!"a", .equal, .int 5⟩) = .error .typeError ∧
    inList (.sel ⟨c!"a", .equal, .int 5⟩) [.sel ⟨c!"a", .equal, .int 5⟩, .none] = .ok true ∧
    inList (.sel ⟨c!"a", .equal, .int 5⟩) [.none, .sel ⟨c!"a", .equal, .int 5⟩] = .error .typeError ∧
    inList (.val (.str c!"x")) [.none, .val (.int 1), .val (.str c!"x")] = .ok true := by decide +kernel

/-- `Pattern(["b", "a", "b"])` and `Pattern([None])` are accepted, `Pattern([1, "a"])` and a selector with a text are not -/
example : newAny [.val (.str c!"b"), .val (.str c!"a"), .val (.str c!"b")] = .ok [.val (.str c!"a"), .val (.str c!"b")] ∧
    newAny [.none] = .ok [.none] ∧ newAny [.val (.int 1), .val (.str c!"a")] = .error .typeError ∧
    newAny [.val (.str c!"a"), .sel ⟨c!"a", .equal, .int 5⟩] = .error .typeError := by decide +kernel

end Compare
end Verif

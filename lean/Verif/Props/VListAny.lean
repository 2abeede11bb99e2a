import Verif.Model.VListAny
import Verif.Lemmas.Bits
import Verif.Props.VerticalList
import Mathlib.Data.List.Nodup
/-! C93: vertical lists on any row numbers and arguments of any type. -/
namespace Verif
namespace VListAny
open Ctors (Obj)
variable {σ : Type}

/-! ## specification -/

/-- an `int` or a `float` -/
def IsNumber (q : Obj) : Prop := (∃ i, q = .int i) ∨ ∃ f, q = .float f

/-- the arguments have the documented types -/
structure Typed (c : Call σ) (s : List σ) (t f : List Elem) (n : Int) : Prop where
  sels : c.sels = some s
  tp : c.tp = some t
  fp : c.fp = some f
  rows : c.rows = .int n
  quality : IsNumber c.quality

/-- an element that is a row number for `n` rows, counting from the end if negative -/
def IndexOf (n : Int) (e : Elem) : Prop := ∃ k, e = .int k ∧ -n ≤ k ∧ k < n

/-- the row that an index stands for -/
def Stands (n : Int) (e : Elem) (i : Nat) : Prop := ∃ k, e = .int k ∧ -n ≤ k ∧ k < n ∧ (k = i ∨ k + n = i) ∧ (i : Int) < n

/-- the call that creates the vertical list (without joins) -/
def Prog.call : Prog σ → Option (Call σ)
  | .new c => some c
  | .join _ _ _ _ _ => none
  | .setQuality a _ => a.call

/-- all constructor calls of the program satisfy `P` -/
def Prog.Calls (P : Call σ → Prop) : Prog σ → Prop
  | .new c => P c
  | .join a b _ _ _ => a.Calls P ∧ b.Calls P
  | .setQuality a _ => a.Calls P

/-- the elements of the sequences are numbers of rows, `0 ≤ k < n`, in any order and number -/
def RowNumbers (c : Call σ) : Prop :=
  ∀ n, c.rows = .int n → 0 ≤ n ∧ ∀ l, c.tp = some l ∨ c.fp = some l → ∀ e ∈ l, ∃ k, e = .int k ∧ 0 ≤ k ∧ k < n

/-- a negative index, from the end of `n` rows, written as a row number -/
def wrapElem (n : Int) : Elem → Elem
  | .int k => if k < 0 ∧ -n ≤ k then .int (k + n) else .int k
  | e => e

def wrapCall (c : Call σ) : Call σ :=
  match c.rows with
  | .int n => { c with tp := c.tp.map (·.map (wrapElem n)), fp := c.fp.map (·.map (wrapElem n)) }
  | _ => c

/-- the program with row numbers instead of negative indexes -/
def Prog.wrap : Prog σ → Prog σ
  | .new c => .new (wrapCall c)
  | .join a b m d z => .join a.wrap b.wrap m d z
  | .setQuality a q => .setQuality a.wrap q

/-- `e` is in the first (second) sequence of every constructor call of the program -/
def Prog.InAllTp (p : Prog σ) (e : Elem) : Prop := p.Calls (fun c => ∃ l, c.tp = some l ∧ e ∈ l)
def Prog.InAllFp (p : Prog σ) (e : Elem) : Prop := p.Calls (fun c => ∃ l, c.fp = some l ∧ e ∈ l)

/-- row `i` is meant by some element of the first (second) sequence of every constructor call -/
def Prog.RowInAllTp (p : Prog σ) (i : Nat) : Prop := p.Calls (fun c => ∃ l n, c.tp = some l ∧ c.rows = .int n ∧ ∃ e ∈ l, Stands n e i)
def Prog.RowInAllFp (p : Prog σ) (i : Nat) : Prop := p.Calls (fun c => ∃ l n, c.fp = some l ∧ c.rows = .int n ∧ ∃ e ∈ l, Stands n e i)

/-- the two objects show the same to a client, and their sequences stand for the same rows -/
structure SameVL (x : VL σ (List Elem)) (y : VL σ Bits) : Prop where
  sels : x.sels = y.sels
  tp : x.tp = y.tp
  fp : x.fp = y.fp
  rows : x.rows = y.rows
  quality : x.quality = y.quality
  tpLen : (y.tpSeq.length : Int) = y.rows
  fpLen : (y.fpSeq.length : Int) = y.rows
  tpSeq : ∀ e, e ∈ x.tpSeq ↔ ∃ i : Nat, e = .int i ∧ y.tpSeq.get i = true
  fpSeq : ∀ e, e ∈ x.fpSeq ↔ ∃ i : Nat, e = .int i ∧ y.fpSeq.get i = true

/-- same outcome: same exception, both `None`, or equivalent vertical lists -/
def SameEnd : Except PyErr (Option (VL σ (List Elem))) → Except PyErr (Option (VL σ Bits)) → Prop
  | .error e, .error e' => e = e'
  | .ok none, .ok none => True
  | .ok (some x), .ok (some y) => SameVL x y
  | _, _ => False

/-! ## constructors -/

theorem isNumber_iff (q : Obj) : IsNumber q ↔ (!q.isInt && !q.isFloat) = false := by
  cases q <;> simp [IsNumber, Obj.isInt, Obj.isFloat]

theorem check_spec (c : Call σ) :
    (∀ s t f n, Typed c s t f n → check c = .ok (s, t, f, n, c.quality)) ∧
    ((¬ ∃ s t f n, Typed c s t f n) → check c = .error .typeError) := by
  obtain ⟨s, t, f, n, q⟩ := c
  constructor
  · rintro s' t' f' n' ⟨h1, h2, h3, h4, h5⟩
    simp only at h1 h2 h3 h4 h5
    subst h1 h2 h3 h4
    simp only [check]
    rw [if_neg (by rw [(isNumber_iff q).1 h5]; simp)]
  · intro h
    cases s with
    | none => rfl
    | some s => cases t with
      | none => rfl
      | some t => cases f with
        | none => rfl
        | some f => cases n <;> try rfl
                    rename_i n
                    simp only [check]
                    by_cases hq : IsNumber q
                    · exact absurd ⟨s, t, f, n, rfl, rfl, rfl, rfl, hq⟩ h
                    · rw [if_pos (by rw [isNumber_iff] at hq; simpa using hq)]

/-- C93: `VerticalListWithSets(...)` succeeds exactly for arguments of the documented types whose elements are hashable, otherwise `TypeError`; the
sequences are the distinct elements, the counters are the lengths of the arguments (repetitions count). -/
theorem C93_new_sets (c : Call σ) :
    ((∃ v, newSets c = .ok v) ↔ ∃ s t f n, Typed c s t f n ∧ ∀ e, e ∈ t ∨ e ∈ f → e.hashable = true) ∧
    (∀ e, newSets c = .error e → e = .typeError) ∧
    ∀ v s t f n, Typed c s t f n → newSets c = .ok v →
      v.sels = s ∧ v.tp = t.length ∧ v.fp = f.length ∧ v.rows = n ∧ v.quality = c.quality ∧
      v.tpSeq.Nodup ∧ v.fpSeq.Nodup ∧ (∀ e, e ∈ v.tpSeq ↔ e ∈ t) ∧ ∀ e, e ∈ v.fpSeq ↔ e ∈ f := by
  by_cases h : ∃ s t f n, Typed c s t f n
  · obtain ⟨s, t, f, n, h⟩ := h
    have huniq : ∀ s' t' f' n', Typed c s' t' f' n' → s' = s ∧ t' = t ∧ f' = f ∧ n' = n := by
      rintro s' t' f' n' ⟨h1, h2, h3, h4, _⟩
      obtain ⟨g1, g2, g3, g4, _⟩ := h
      rw [g1] at h1; rw [g2] at h2; rw [g3] at h3; rw [g4] at h4
      cases h1; cases h2; cases h3; cases h4; exact ⟨rfl, rfl, rfl, rfl⟩
    have hc := (check_spec c).1 s t f n h
    have hn : newSets c = (toSet t).bind (fun ts => (toSet f).bind (fun fs => .ok ⟨s, ts, fs, t.length, f.length, n, c.quality⟩)) := by
      unfold newSets
      rw [hc]
      rfl
    rw [hn]
    have hall : ∀ l : List Elem, l.all Elem.hashable = true ↔ ∀ e ∈ l, e.hashable = true := fun l => List.all_eq_true
    by_cases ht : t.all Elem.hashable = true
    · by_cases hf : f.all Elem.hashable = true
      · simp only [toSet, if_pos ht, if_pos hf, Except.bind]
        refine ⟨⟨fun _ => ⟨s, t, f, n, h, fun e he => he.elim ((hall t).1 ht e) ((hall f).1 hf e)⟩, fun _ => ⟨_, rfl⟩⟩, (fun e he => by cases he), ?_⟩
        intro v s' t' f' n' h' hv
        obtain ⟨rfl, rfl, rfl, rfl⟩ := huniq _ _ _ _ h'
        cases hv
        exact ⟨rfl, rfl, rfl, rfl, rfl, List.nodup_dedup _, List.nodup_dedup _, fun e => List.mem_dedup, fun e => List.mem_dedup⟩
      · simp only [toSet, if_pos ht, if_neg hf, Except.bind]
        refine ⟨⟨(fun ⟨v, hv⟩ => by cases hv), ?_⟩, (fun e he => by cases he; rfl), (fun v _ _ _ _ _ hv => by cases hv)⟩
        rintro ⟨s', t', f', n', h', hh⟩
        obtain ⟨rfl, rfl, rfl, rfl⟩ := huniq _ _ _ _ h'
        exact absurd ((hall f').2 (fun e he => hh e (.inr he))) hf
    · simp only [toSet, if_neg ht, Except.bind]
      refine ⟨⟨(fun ⟨v, hv⟩ => by cases hv), ?_⟩, (fun e he => by cases he; rfl), (fun v _ _ _ _ _ hv => by cases hv)⟩
      rintro ⟨s', t', f', n', h', hh⟩
      obtain ⟨rfl, rfl, rfl, rfl⟩ := huniq _ _ _ _ h'
      exact absurd ((hall t').2 (fun e he => hh e (.inl he))) ht
  · have hc := (check_spec c).2 h
    have hn : newSets c = .error .typeError := by unfold newSets; rw [hc]; rfl
    rw [hn]
    exact ⟨⟨(fun ⟨v, hv⟩ => by cases hv), fun ⟨s, t, f, n, h', _⟩ => absurd ⟨s, t, f, n, h'⟩ h⟩, (fun e he => by cases he; rfl),
      (fun v _ _ _ _ _ hv => by cases hv)⟩

/-- the loop that sets the bits -/
theorem markBits_spec (l : List Elem) (b : Bits) :
    (∀ c, markBits b l = .ok c → c.length = b.length ∧ ∀ i, c.get i = true ↔ b.get i = true ∨ ∃ e ∈ l, Stands b.length e i) ∧
    ((∀ e ∈ l, IndexOf b.length e) → ∃ c, markBits b l = .ok c) ∧
    (∀ pre e post, l = pre ++ e :: post → (∀ x ∈ pre, IndexOf b.length x) → ¬ IndexOf b.length e →
      markBits b l = .error (match e with | .int _ => .indexError | .other _ _ => .typeError)) := by
  induction l generalizing b with
  | nil => exact ⟨(fun c h => by cases h; simp), fun _ => ⟨b, rfl⟩, fun pre e post h => by simp at h⟩
  | cons x l ih =>
    cases x with
    | other id h =>
      refine ⟨(fun c h => by cases h), fun hh => ?_, ?_⟩
      · obtain ⟨k, hk, _⟩ := hh (.other id h) (by simp)
        cases hk
      · intro pre e post hl hpre he
        cases pre with
        | nil => simp at hl; obtain ⟨rfl, rfl⟩ := hl; rfl
        | cons y pre =>
          simp at hl
          obtain ⟨k, hk, _⟩ := hpre y (by simp)
          rw [← hl.1] at hk; cases hk
    | int k =>
      have hlenset : ∀ j, (b.set j true).length = b.length := fun j => List.length_set
      -- the three cases of the index
      have step : ∀ j : Nat, j < b.length → (k = j ∨ k + b.length = j) → -(b.length : Int) ≤ k → k < b.length →
          markBits b (.int k :: l) = markBits (b.set j true) l →
          (∀ c, markBits b (.int k :: l) = .ok c → c.length = b.length ∧ ∀ i, c.get i = true ↔ b.get i = true ∨ ∃ e ∈ Elem.int k :: l, Stands b.length e i) ∧
          ((∀ e ∈ Elem.int k :: l, IndexOf b.length e) → ∃ c, markBits b (.int k :: l) = .ok c) ∧
          (∀ pre e post, Elem.int k :: l = pre ++ e :: post → (∀ x ∈ pre, IndexOf b.length x) → ¬ IndexOf b.length e →
            markBits b (.int k :: l) = .error (match e with | .int _ => .indexError | .other _ _ => .typeError)) := by
        intro j hj hkj hk1 hk2 heq
        obtain ⟨i1, i2, i3⟩ := ih (b.set j true)
        rw [hlenset] at i1 i2 i3
        rw [heq]
        refine ⟨?_, ?_, ?_⟩
        · intro c hc
          obtain ⟨a1, a2⟩ := i1 c hc
          refine ⟨a1, fun i => ?_⟩
          rw [a2]
          have hset : Bits.get (b.set j true) i = true ↔ b.get i = true ∨ i = j := by
            unfold Bits.get
            rw [List.getD_eq_getElem?_getD, List.getD_eq_getElem?_getD, List.getElem?_set]
            by_cases hij : j = i
            · subst hij; simp [hj]
            · rw [if_neg hij]; constructor
              · exact .inl
              · rintro (h | h)
                · exact h
                · exact absurd h.symm hij
          rw [hset]
          constructor
          · rintro ((h | rfl) | ⟨e, he, hs⟩)
            · exact .inl h
            · exact .inr ⟨.int k, by simp, k, rfl, hk1, hk2, hkj, by exact_mod_cast hj⟩
            · exact .inr ⟨e, by simp [he], hs⟩
          · rintro (h | ⟨e, he, hs⟩)
            · exact .inl (.inl h)
            · rcases List.mem_cons.1 he with rfl | he
              · obtain ⟨k', hk', s1, s2, s3, s4⟩ := hs
                cases hk'
                exact .inl (.inr (by omega))
              · exact .inr ⟨e, he, hs⟩
        · intro hh
          exact i2 (fun e he => hh e (by simp [he]))
        · intro pre e post hl hpre he
          cases pre with
          | nil =>
            simp at hl
            exact absurd ⟨k, hl.1.symm, hk1, hk2⟩ he
          | cons y pre =>
            simp at hl
            exact i3 pre e post hl.2 (fun x hx => hpre x (by simp [hx])) he
      by_cases c1 : 0 ≤ k ∧ k < b.length
      · exact step k.toNat (by omega) (.inl (by omega)) (by omega) c1.2 (by simp only [markBits]; rw [if_pos c1])
      · by_cases c2 : k < 0 ∧ -(b.length : Int) ≤ k
        · exact step (k + b.length).toNat (by omega) (.inr (by omega)) c2.2 (by omega) (by simp only [markBits]; rw [if_neg c1, if_pos c2])
        · have hbad : ¬ IndexOf b.length (.int k) := by
            rintro ⟨k', hk', h1, h2⟩
            cases hk'
            by_cases h0 : 0 ≤ k
            · exact c1 ⟨h0, h2⟩
            · exact c2 ⟨by omega, h1⟩
          have heq : markBits b (.int k :: l) = .error .indexError := by simp only [markBits]; rw [if_neg c1, if_neg c2]
          rw [heq]
          refine ⟨(fun c h => by cases h), fun hh => absurd (hh _ (by simp)) hbad, ?_⟩
          intro pre e post hl hpre he
          cases pre with
          | nil => simp at hl; obtain ⟨rfl, rfl⟩ := hl; rfl
          | cons y pre =>
            simp at hl
            exact absurd (hl.1 ▸ hpre y (by simp)) hbad

theorem typed_unique {c : Call σ} {s s' : List σ} {t t' f f' : List Elem} {n n' : Int} (h : Typed c s t f n) (h' : Typed c s' t' f' n') :
    s' = s ∧ t' = t ∧ f' = f ∧ n' = n := by
  obtain ⟨h1, h2, h3, h4, _⟩ := h'
  obtain ⟨g1, g2, g3, g4, _⟩ := h
  rw [g1] at h1; rw [g2] at h2; rw [g3] at h3; rw [g4] at h4
  cases h1; cases h2; cases h3; cases h4; exact ⟨rfl, rfl, rfl, rfl⟩

theorem newBits_typed {c : Call σ} {s : List σ} {t f : List Elem} {n : Int} (h : Typed c s t f n) :
    newBits c = if n < 0 then .error .valueError else
      (markBits (List.replicate n.toNat false) t).bind (fun tb => (markBits (List.replicate n.toNat false) f).bind (fun fb =>
        .ok ⟨s, tb, fb, t.length, f.length, n, c.quality⟩)) := by
  unfold newBits
  rw [(check_spec c).1 s t f n h]
  rfl

theorem get_replicate (n i : Nat) : Bits.get (List.replicate n false) i = false := by
  simp only [Bits.get, List.getD_eq_getElem?_getD, List.getElem?_replicate]
  split <;> rfl

/-- C93: `VerticalListWithBitsets(...)` succeeds exactly for arguments of the documented types, a number of rows that is not negative, and elements
that are indexes, `-n ≤ k < n`. -/
theorem C93_new_bits (c : Call σ) :
    ((∃ v, newBits c = .ok v) ↔ ∃ s t f n, Typed c s t f n ∧ 0 ≤ n ∧ ∀ e, e ∈ t ∨ e ∈ f → IndexOf n e) ∧
    ∀ v s t f n, Typed c s t f n → newBits c = .ok v →
      v.sels = s ∧ v.tp = t.length ∧ v.fp = f.length ∧ v.rows = n ∧ v.quality = c.quality ∧
      (v.tpSeq.length : Int) = n ∧ (v.fpSeq.length : Int) = n ∧
      (∀ i, v.tpSeq.get i = true ↔ ∃ e ∈ t, Stands n e i) ∧ ∀ i, v.fpSeq.get i = true ↔ ∃ e ∈ f, Stands n e i := by
  by_cases h : ∃ s t f n, Typed c s t f n
  · obtain ⟨s, t, f, n, h⟩ := h
    rw [newBits_typed h]
    by_cases hn : n < 0
    · rw [if_pos hn]
      refine ⟨⟨(fun ⟨v, hv⟩ => by cases hv), ?_⟩, (fun v _ _ _ _ _ hv => by cases hv)⟩
      rintro ⟨s', t', f', n', h', hn', _⟩
      obtain ⟨rfl, rfl, rfl, rfl⟩ := typed_unique h h'
      omega
    · rw [if_neg hn]
      have hnn : (n.toNat : Int) = n := Int.toNat_of_nonneg (by omega)
      obtain ⟨t1, t2, t3⟩ := markBits_spec t (List.replicate n.toNat false)
      obtain ⟨f1, f2, f3⟩ := markBits_spec f (List.replicate n.toNat false)
      simp only [List.length_replicate, hnn, get_replicate, Bool.false_eq_true, false_or] at t1 t2 t3 f1 f2 f3
      constructor
      · constructor
        · rintro ⟨v, hv⟩
          refine ⟨s, t, f, n, h, by omega, ?_⟩
          rintro e he
          by_contra hbad
          -- the first bad element of a sequence makes the loop fail
          have first : ∀ l : List Elem, e ∈ l → ∃ pre x post, l = pre ++ x :: post ∧ (∀ y ∈ pre, IndexOf n y) ∧ ¬ IndexOf n x := by
            intro l
            induction l with
            | nil => simp
            | cons y l ih =>
              intro hl
              by_cases hy : IndexOf n y
              · have : e ∈ l := by
                  rcases List.mem_cons.1 hl with rfl | hl
                  · exact absurd hy hbad
                  · exact hl
                obtain ⟨pre, x, post, h1, h2, h3⟩ := ih this
                exact ⟨y :: pre, x, post, by rw [h1]; rfl, by
                  intro z hz
                  rcases List.mem_cons.1 hz with rfl | hz
                  · exact hy
                  · exact h2 z hz, h3⟩
              · exact ⟨[], y, l, rfl, by simp, hy⟩
          rcases he with he | he
          · obtain ⟨pre, x, post, h1, h2, h3⟩ := first t he
            rw [t3 pre x post h1 h2 h3] at hv
            cases hv
          · obtain ⟨pre, x, post, h1, h2, h3⟩ := first f he
            rw [f3 pre x post h1 h2 h3] at hv
            cases hm : markBits (List.replicate n.toNat false) t with
            | error e => rw [hm] at hv; cases hv
            | ok tb => rw [hm] at hv; cases hv
        · rintro ⟨s', t', f', n', h', hn', hh⟩
          obtain ⟨rfl, rfl, rfl, rfl⟩ := typed_unique h h'
          obtain ⟨tb, ht⟩ := t2 (fun e he => hh e (.inl he))
          obtain ⟨fb, hf⟩ := f2 (fun e he => hh e (.inr he))
          rw [ht, hf]
          exact ⟨_, rfl⟩
      · intro v s' t' f' n' h' hv
        obtain ⟨rfl, rfl, rfl, rfl⟩ := typed_unique h h'
        cases hm : markBits (List.replicate n'.toNat false) t' with
        | error e => rw [hm] at hv; cases hv
        | ok tb =>
          rw [hm] at hv
          cases hm' : markBits (List.replicate n'.toNat false) f' with
          | error e => rw [hm'] at hv; cases hv
          | ok fb =>
            rw [hm'] at hv
            cases hv
            obtain ⟨a1, a2⟩ := t1 tb hm
            obtain ⟨b1, b2⟩ := f1 fb hm'
            exact ⟨rfl, rfl, rfl, rfl, rfl, by simp only; omega, by simp only; omega, a2, b2⟩
  · have hn : newBits c = .error .typeError := by unfold newBits; rw [(check_spec c).2 h]; rfl
    rw [hn]
    exact ⟨⟨(fun ⟨v, hv⟩ => by cases hv), fun ⟨s, t, f, n, h', _⟩ => absurd ⟨s, t, f, n, h'⟩ h⟩, (fun v _ _ _ _ _ hv => by cases hv)⟩

/-- C93: the exceptions of `VerticalListWithBitsets(...)`: `TypeError` for an argument of a wrong type, `ValueError` for a negative number of rows, and
otherwise the first element that is no index decides, the positive rows first: `IndexError` for a number, `TypeError` for another object. -/
theorem C93_new_bits_errors (c : Call σ) :
    ((¬ ∃ s t f n, Typed c s t f n) → newBits c = .error .typeError) ∧
    (∀ s t f n, Typed c s t f n → n < 0 → newBits c = .error .valueError) ∧
    (∀ s t f n pre e post, Typed c s t f n → 0 ≤ n → t ++ f = pre ++ e :: post → (∀ x ∈ pre, IndexOf n x) → ¬ IndexOf n e →
      newBits c = .error (match e with | .int _ => .indexError | .other _ _ => .typeError)) := by
  refine ⟨?_, ?_, ?_⟩
  · intro h
    unfold newBits; rw [(check_spec c).2 h]; rfl
  · intro s t f n h hn
    rw [newBits_typed h, if_pos hn]
  · intro s t f n pre e post h hn hl hpre he
    rw [newBits_typed h, if_neg (by omega)]
    have hnn : (n.toNat : Int) = n := Int.toNat_of_nonneg hn
    obtain ⟨_, t2, t3⟩ := markBits_spec t (List.replicate n.toNat false)
    obtain ⟨_, f2, f3⟩ := markBits_spec f (List.replicate n.toNat false)
    simp only [List.length_replicate, hnn] at t2 t3 f2 f3
    rcases List.append_eq_append_iff.1 hl with ⟨as, h1, h2⟩ | ⟨bs, h1, h2⟩
    · -- the bad element is in `f`
      obtain ⟨tb, ht⟩ := t2 (fun x hx => hpre x (by rw [h1]; simp [hx]))
      rw [ht]
      simp only [Except.bind]
      rw [f3 as e post h2 (fun x hx => hpre x (by rw [h1]; simp [hx])) he]
    · cases bs with
      | nil =>
        simp at h1 h2
        obtain ⟨tb, ht⟩ := t2 (fun x hx => hpre x (by rw [← h1]; exact hx))
        rw [ht]
        simp only [Except.bind]
        rw [f3 [] e post (by rw [h2]; rfl) (by simp) he]
      | cons y bs =>
        simp at h2
        obtain ⟨rfl, h2⟩ := h2
        rw [t3 pre e bs h1 hpre he]
        rfl

/-! ## programs -/

theorem mem_interSets (a b : List Elem) (e : Elem) : e ∈ interSets a b ↔ e ∈ a ∧ e ∈ b := by
  simp [interSets]

/-- what a successful `join` did -/
theorem join_ok {Seq : Type} {inter : Seq → Seq → Seq} {size : Seq → Nat} {a : VL σ Seq} {c : JoinCall σ Seq} {v : VL σ Seq}
    (h : join inter size a c = .ok (some v)) :
    ∃ b m d z s, c = ⟨some b, some m, some d, some z⟩ ∧ a.rows = b.rows ∧ b.sels.getLast? = some s ∧ v.sels = a.sels ++ [s] ∧
      v.tpSeq = inter a.tpSeq b.tpSeq ∧ v.fpSeq = inter a.fpSeq b.fpSeq ∧ v.tp = size v.tpSeq ∧ v.fp = size v.fpSeq ∧ v.rows = a.rows ∧
      m (vlParams d v.tp v.fp) = .ok v.quality ∧ IsNumber v.quality ∧ (z = true → 0 < v.tp + v.fp) := by
  obtain ⟨b, m, d, z⟩ := c
  cases b with
  | none => cases h
  | some b => cases m with
    | none => cases h
    | some m => cases d with
      | none => cases h
      | some d => cases z with
        | none => cases h
        | some z =>
          simp only [join] at h
          by_cases hr : a.rows ≠ b.rows
          · rw [if_pos hr] at h; cases h
          · rw [if_neg hr] at h
            split at h
            · rename_i hz
              cases hl : b.sels.getLast? with
              | none => rw [hl] at h; cases h
              | some s =>
                rw [hl] at h
                simp only at h
                cases hm : m (vlParams d (size (inter a.tpSeq b.tpSeq)) (size (inter a.fpSeq b.fpSeq))) with
                | error e => rw [hm] at h; cases h
                | ok q =>
                  rw [hm] at h
                  simp only at h
                  split at h
                  · cases h
                  · rename_i hq
                    cases h
                    refine ⟨b, m, d, z, s, rfl, not_not.1 hr, hl, rfl, rfl, rfl, rfl, rfl, rfl, hm, ?_, ?_⟩
                    · rw [isNumber_iff]; simpa using hq
                    · intro h; subst h; simpa using hz
            · cases h

/-- sets: for every program of constructor calls, joins and assignments, on any elements -/
theorem sets_exact (p : Prog σ) (x : VL σ (List Elem)) (h : p.sets = .ok (some x)) :
    x.tpSeq.Nodup ∧ x.fpSeq.Nodup ∧ (∀ e, e ∈ x.tpSeq ↔ p.InAllTp e) ∧ (∀ e, e ∈ x.fpSeq ↔ p.InAllFp e) ∧
    (p.call = none → x.tp = x.tpSeq.length ∧ x.fp = x.fpSeq.length) ∧
    (∀ c, p.call = some c → ∃ t f, c.tp = some t ∧ c.fp = some f ∧ x.tp = t.length ∧ x.fp = f.length) := by
  induction p generalizing x with
  | new c =>
    simp only [Prog.sets, Prog.eval] at h
    cases hn : newSets c with
    | error e => rw [hn] at h; cases h
    | ok v =>
      rw [hn] at h
      cases h
      obtain ⟨s, t, f, n, ht, _⟩ := (C93_new_sets c).1.1 ⟨_, hn⟩
      obtain ⟨_, h2, h3, _, _, h6, h7, h8, h9⟩ := (C93_new_sets c).2.2 _ s t f n ht hn
      refine ⟨h6, h7, fun e => ?_, fun e => ?_, (fun hc => by cases hc), ?_⟩
      · rw [h8]
        simp only [Prog.InAllTp, Prog.Calls, ht.tp, Option.some.injEq, exists_eq_left']
      · rw [h9]
        simp only [Prog.InAllFp, Prog.Calls, ht.fp, Option.some.injEq, exists_eq_left']
      · intro c' hc
        cases hc
        exact ⟨t, f, ht.tp, ht.fp, h2, h3⟩
  | join a b m d z iha ihb =>
    simp only [Prog.sets, Prog.eval] at h iha ihb
    cases ha : a.eval newSets interSets List.length with
    | error e => rw [ha] at h; cases h
    | ok o =>
      rw [ha] at h
      cases o with
      | none => cases h
      | some u =>
        simp only at h
        cases hb : b.eval newSets interSets List.length with
        | error e => rw [hb] at h; cases h
        | ok o' =>
          rw [hb] at h
          simp only at h
          obtain ⟨w, m', d', z', s, hc, _, _, _, h5, h6, h7, h8, _⟩ := join_ok h
          cases hc
          obtain ⟨a1, a2, a3, a4, _⟩ := iha u ha
          obtain ⟨b1, b2, b3, b4, _⟩ := ihb w hb
          refine ⟨by rw [h5]; exact a1.filter _, by rw [h6]; exact a2.filter _, fun e => ?_, fun e => ?_, fun _ => ⟨h7, h8⟩, fun c hc => by cases hc⟩
          · rw [h5, mem_interSets, a3, b3]; rfl
          · rw [h6, mem_interSets, a4, b4]; rfl
  | setQuality a q iha =>
    simp only [Prog.sets, Prog.eval] at h iha
    cases ha : a.eval newSets interSets List.length with
    | error e => rw [ha] at h; cases h
    | ok o =>
      rw [ha] at h
      cases o with
      | none => cases h
      | some u =>
        cases h
        exact iha u ha

/-- bitsets: the same with rows -/
theorem bits_exact (p : Prog σ) (x : VL σ Bits) (h : p.bits = .ok (some x)) :
    (x.tpSeq.length : Int) = x.rows ∧ (x.fpSeq.length : Int) = x.rows ∧
    (∀ i, x.tpSeq.get i = true ↔ p.RowInAllTp i) ∧ (∀ i, x.fpSeq.get i = true ↔ p.RowInAllFp i) ∧
    (p.call = none → x.tp = x.tpSeq.ones ∧ x.fp = x.fpSeq.ones) ∧
    (∀ c, p.call = some c → ∃ t f, c.tp = some t ∧ c.fp = some f ∧ x.tp = t.length ∧ x.fp = f.length) := by
  induction p generalizing x with
  | new c =>
    simp only [Prog.bits, Prog.eval] at h
    cases hn : newBits c with
    | error e => rw [hn] at h; cases h
    | ok v =>
      rw [hn] at h
      cases h
      obtain ⟨s, t, f, n, ht, _⟩ := (C93_new_bits c).1.1 ⟨_, hn⟩
      obtain ⟨_, h2, h3, h4, _, h6, h7, h8, h9⟩ := (C93_new_bits c).2 _ s t f n ht hn
      refine ⟨by rw [h6, h4], by rw [h7, h4], fun i => ?_, fun i => ?_, (fun hc => by cases hc), ?_⟩
      · rw [h8]
        simp only [Prog.RowInAllTp, Prog.Calls, ht.tp, ht.rows, Option.some.injEq, Obj.int.injEq]
        exact ⟨fun hh => ⟨t, n, rfl, rfl, hh⟩, fun ⟨l, n', e1, e2, hh⟩ => by subst e1 e2; exact hh⟩
      · rw [h9]
        simp only [Prog.RowInAllFp, Prog.Calls, ht.fp, ht.rows, Option.some.injEq, Obj.int.injEq]
        exact ⟨fun hh => ⟨f, n, rfl, rfl, hh⟩, fun ⟨l, n', e1, e2, hh⟩ => by subst e1 e2; exact hh⟩
      · intro c' hc
        cases hc
        exact ⟨t, f, ht.tp, ht.fp, h2, h3⟩
  | join a b m d z iha ihb =>
    simp only [Prog.bits, Prog.eval] at h iha ihb
    cases ha : a.eval newBits Bits.and Bits.ones with
    | error e => rw [ha] at h; cases h
    | ok o =>
      rw [ha] at h
      cases o with
      | none => cases h
      | some u =>
        simp only at h
        cases hb : b.eval newBits Bits.and Bits.ones with
        | error e => rw [hb] at h; cases h
        | ok o' =>
          rw [hb] at h
          simp only at h
          obtain ⟨w, m', d', z', s, hc, hr, _, _, h5, h6, h7, h8, h9, _⟩ := join_ok h
          cases hc
          obtain ⟨a1, a2, a3, a4, _⟩ := iha u ha
          obtain ⟨b1, b2, b3, b4, _⟩ := ihb w hb
          refine ⟨?_, ?_, fun i => ?_, fun i => ?_, fun _ => ⟨h7, h8⟩, fun c hc => by cases hc⟩
          · rw [h5, h9, Bits.len_and]; omega
          · rw [h6, h9, Bits.len_and]; omega
          · rw [h5, Bits.get_and, Bool.and_eq_true, a3, b3]; rfl
          · rw [h6, Bits.get_and, Bool.and_eq_true, a4, b4]; rfl
  | setQuality a q iha =>
    simp only [Prog.bits, Prog.eval] at h iha
    cases ha : a.eval newBits Bits.and Bits.ones with
    | error e => rw [ha] at h; cases h
    | ok o =>
      rw [ha] at h
      cases o with
      | none => cases h
      | some u =>
        cases h
        exact iha u ha

/-- C93: for every program, with sets and on any elements: the sequences of the result are the elements common to all constructor calls, each once;
tp and fp are their sizes if the result comes from a join, and the lengths of the arguments (repetitions count) if it comes from a constructor. -/
theorem C93_exact_sets (p : Prog σ) (x : VL σ (List Elem)) (h : p.sets = .ok (some x)) :
    x.tpSeq.Nodup ∧ x.fpSeq.Nodup ∧ (∀ e, e ∈ x.tpSeq ↔ p.InAllTp e) ∧ (∀ e, e ∈ x.fpSeq ↔ p.InAllFp e) ∧
    (p.call = none → x.tp = x.tpSeq.length ∧ x.fp = x.fpSeq.length) ∧
    (∀ c, p.call = some c → ∃ t f, c.tp = some t ∧ c.fp = some f ∧ x.tp = t.length ∧ x.fp = f.length) := sets_exact p x h

/-- C93: for every program, with bitsets: the bits of the result are the rows that every constructor call names by some index, from the beginning or
from the end. -/
theorem C93_exact_bits (p : Prog σ) (x : VL σ Bits) (h : p.bits = .ok (some x)) :
    (x.tpSeq.length : Int) = x.rows ∧ (x.fpSeq.length : Int) = x.rows ∧
    (∀ i, x.tpSeq.get i = true ↔ p.RowInAllTp i) ∧ (∀ i, x.fpSeq.get i = true ↔ p.RowInAllFp i) ∧
    (p.call = none → x.tp = x.tpSeq.ones ∧ x.fp = x.fpSeq.ones) ∧
    (∀ c, p.call = some c → ∃ t f, c.tp = some t ∧ c.fp = some f ∧ x.tp = t.length ∧ x.fp = f.length) := bits_exact p x h

/-! ## agreement -/

theorem new_agree (c : Call σ) (hc : RowNumbers c) : SameEnd (Prog.new c).sets (Prog.new c).bits := by
  by_cases h : ∃ s t f n, Typed c s t f n
  · obtain ⟨s, t, f, n, h⟩ := h
    obtain ⟨hn, hk⟩ := hc n h.rows
    have ht := hk t (.inl h.tp)
    have hf := hk f (.inr h.fp)
    have hidx : ∀ e, e ∈ t ∨ e ∈ f → ∃ k, e = .int k ∧ 0 ≤ k ∧ k < n := fun e he => he.elim (ht e) (hf e)
    obtain ⟨v, hv⟩ := (C93_new_sets c).1.2 ⟨s, t, f, n, h, fun e he => by obtain ⟨k, rfl, _⟩ := hidx e he; rfl⟩
    obtain ⟨w, hw⟩ := (C93_new_bits c).1.2 ⟨s, t, f, n, h, hn, fun e he => by
      obtain ⟨k, rfl, h1, h2⟩ := hidx e he; exact ⟨k, rfl, by omega, h2⟩⟩
    obtain ⟨a1, a2, a3, a4, a5, a6, a7, a8, a9⟩ := (C93_new_sets c).2.2 v s t f n h hv
    obtain ⟨b1, b2, b3, b4, b5, b6, b7, b8, b9⟩ := (C93_new_bits c).2 w s t f n h hw
    simp only [Prog.sets, Prog.bits, Prog.eval, hv, hw, SameEnd]
    have seq : ∀ l : List Elem, (∀ e ∈ l, ∃ k, e = .int k ∧ 0 ≤ k ∧ k < n) → ∀ e, e ∈ l ↔ ∃ i : Nat, e = .int i ∧ ∃ e' ∈ l, Stands n e' i := by
      intro l hl e
      constructor
      · intro he
        obtain ⟨k, rfl, h1, h2⟩ := hl e he
        refine ⟨k.toNat, by rw [Int.toNat_of_nonneg h1], .int k, he, k, rfl, by omega, h2, .inl (by omega), by omega⟩
      · rintro ⟨i, rfl, e', he', k, rfl, h1, h2, h3, h4⟩
        obtain ⟨k', hk', h5, h6⟩ := hl _ he'
        cases hk'
        have : (i : Int) = k := by omega
        rw [this]; exact he'
    refine ⟨by rw [a1, b1], by rw [a2, b2], by rw [a3, b3], by rw [a4, b4], by rw [a5, b5], by rw [b6, b4], by rw [b7, b4], fun e => ?_, fun e => ?_⟩
    · rw [a8, seq t ht e]; simp only [b8]
    · rw [a9, seq f hf e]; simp only [b9]
  · have e1 : newSets c = .error .typeError := by unfold newSets; rw [(check_spec c).2 h]; rfl
    have e2 : newBits c = .error .typeError := by unfold newBits; rw [(check_spec c).2 h]; rfl
    simp only [Prog.sets, Prog.bits, Prog.eval, e1, e2, SameEnd]

theorem length_of_rows {l : List Elem} {b : Bits} (hn : l.Nodup) (h : ∀ e, e ∈ l ↔ ∃ i : Nat, e = .int i ∧ b.get i = true) : b.ones = l.length := by
  have h1 : ∀ e ∈ l, ∃ i : Nat, e = .int i := fun e he => by obtain ⟨i, hi, _⟩ := (h e).1 he; exact ⟨i, hi⟩
  have h2 : ∃ m : List Nat, l = m.map (fun i : Nat => Elem.int i) := by
    clear h hn
    induction l with
    | nil => exact ⟨[], rfl⟩
    | cons e l ih =>
      obtain ⟨i, rfl⟩ := h1 e (by simp)
      obtain ⟨m, rfl⟩ := ih (fun e he => h1 e (by simp [he]))
      exact ⟨i :: m, rfl⟩
  obtain ⟨m, rfl⟩ := h2
  have hm : m.Nodup := List.Nodup.of_map _ hn
  rw [List.length_map]
  apply Bits.ones_eq_length _ _ hm
  intro i
  have := h (.int i)
  simp only [List.mem_map, Elem.int.injEq, Nat.cast_inj, exists_eq_right] at this
  rw [this]
  exact ⟨fun ⟨j, hj, hb⟩ => by rw [hj]; exact hb, fun hb => ⟨i, rfl, hb⟩⟩

/-- C93: if all row numbers are between 0 and the number of rows (repetitions and arguments of wrong types allowed), sets and bitsets give the same
exceptions, the same `None`s and vertical lists with the same selectors, rows, tp, fp and quality. -/
theorem C93_agree (p : Prog σ) (hp : p.Calls RowNumbers) : SameEnd p.sets p.bits := by
  induction p with
  | new c => exact new_agree c hp
  | setQuality a q ih =>
    have := ih hp
    simp only [Prog.sets, Prog.bits, Prog.eval] at this ⊢
    generalize a.eval newSets interSets List.length = ra at this
    generalize a.eval newBits Bits.and Bits.ones = rb at this
    rcases ra with _ | _ | x <;> rcases rb with _ | _ | y <;> simp only [SameEnd] at this ⊢
    · exact this
    · exact ⟨this.sels, this.tp, this.fp, this.rows, rfl, this.tpLen, this.fpLen, this.tpSeq, this.fpSeq⟩
  | join a b m d z iha ihb =>
    have ha := iha hp.1
    have hb := ihb hp.2
    have sa := sets_exact a
    simp only [Prog.sets, Prog.bits, Prog.eval] at ha hb sa ⊢
    generalize a.eval newSets interSets List.length = ra at ha sa
    generalize a.eval newBits Bits.and Bits.ones = ra' at ha
    generalize b.eval newSets interSets List.length = rb at hb
    generalize b.eval newBits Bits.and Bits.ones = rb' at hb
    rcases ra with _ | _ | x <;> rcases ra' with _ | _ | y <;> simp only [SameEnd] at ha ⊢
    · exact ha
    rcases rb with _ | _ | u <;> rcases rb' with _ | _ | v <;> simp only [SameEnd] at hb ⊢
    · exact hb
    · trivial
    obtain ⟨a1, a2, -⟩ := sa x rfl
    have mt : ∀ e, e ∈ interSets x.tpSeq u.tpSeq ↔ ∃ i : Nat, e = .int i ∧ (y.tpSeq.and v.tpSeq).get i = true := by
      intro e
      rw [mem_interSets, ha.tpSeq, hb.tpSeq]
      constructor
      · rintro ⟨⟨i, rfl, h1⟩, j, hj, h2⟩
        cases hj
        exact ⟨i, rfl, by rw [Bits.get_and, h1, h2]; rfl⟩
      · rintro ⟨i, rfl, h⟩
        rw [Bits.get_and, Bool.and_eq_true] at h
        exact ⟨⟨i, rfl, h.1⟩, i, rfl, h.2⟩
    have mf : ∀ e, e ∈ interSets x.fpSeq u.fpSeq ↔ ∃ i : Nat, e = .int i ∧ (y.fpSeq.and v.fpSeq).get i = true := by
      intro e
      rw [mem_interSets, ha.fpSeq, hb.fpSeq]
      constructor
      · rintro ⟨⟨i, rfl, h1⟩, j, hj, h2⟩
        cases hj
        exact ⟨i, rfl, by rw [Bits.get_and, h1, h2]; rfl⟩
      · rintro ⟨i, rfl, h⟩
        rw [Bits.get_and, Bool.and_eq_true] at h
        exact ⟨⟨i, rfl, h.1⟩, i, rfl, h.2⟩
    have ht : (y.tpSeq.and v.tpSeq).ones = (interSets x.tpSeq u.tpSeq).length := length_of_rows (List.Nodup.filter _ a1) mt
    have hf : (y.fpSeq.and v.fpSeq).ones = (interSets x.fpSeq u.fpSeq).length := length_of_rows (List.Nodup.filter _ a2) mf
    unfold join
    dsimp only
    rw [ht, hf, ← hb.sels, ← ha.rows, ← hb.rows, ← ha.sels]
    by_cases hrows : x.rows = u.rows
    swap
    · rw [if_pos hrows, if_pos hrows]
    rw [if_neg (not_not.2 hrows), if_neg (not_not.2 hrows)]
    by_cases hcond : (!z || decide ((interSets x.tpSeq u.tpSeq).length + (interSets x.fpSeq u.fpSeq).length > 0)) = true
    · rw [if_pos hcond, if_pos hcond]
      cases hlast : u.sels.getLast? with
      | none => trivial
      | some s =>
      cases hq : m (vlParams d (interSets x.tpSeq u.tpSeq).length (interSets x.fpSeq u.fpSeq).length) with
      | error e => trivial
      | ok q =>
      by_cases hnum : (!q.isInt && !q.isFloat) = true
      · simp only [if_pos hnum]
      · simp only [if_neg hnum]
        have l1 := ha.tpLen
        have l2 := hb.tpLen
        have l3 := ha.fpLen
        have l4 := hb.fpLen
        have r1 := ha.rows
        have r2 := hb.rows
        refine ⟨rfl, rfl, rfl, rfl, rfl, ?_, ?_, mt, mf⟩
        · simp only [Bits.len_and]; omega
        · simp only [Bits.len_and]; omega
    · rw [if_neg hcond, if_neg hcond]
      trivial

theorem markBits_wrap (l : List Elem) (b : Bits) : markBits b (l.map (wrapElem b.length)) = markBits b l := by
  induction l generalizing b with
  | nil => rfl
  | cons x l ih =>
    have ih' : ∀ j, markBits (b.set j true) (l.map (wrapElem b.length)) = markBits (b.set j true) l := by
      intro j
      have := ih (b.set j true)
      rwa [List.length_set] at this
    cases x with
    | other => rfl
    | int k =>
      rw [List.map_cons]
      by_cases c2 : k < 0 ∧ -(b.length : Int) ≤ k
      · have e1 : wrapElem b.length (.int k) = .int (k + b.length) := by simp only [wrapElem]; rw [if_pos c2]
        rw [e1]
        simp only [markBits]
        rw [if_pos (by omega), if_neg (by omega), if_pos c2]
        exact ih' _
      · have e1 : wrapElem b.length (.int k) = .int k := by simp only [wrapElem]; rw [if_neg c2]
        rw [e1]
        simp only [markBits]
        split
        · exact ih' _
        · rfl

theorem newBits_wrap (c : Call σ) : newBits (wrapCall c) = newBits c := by
  by_cases h : ∃ s t f n, Typed c s t f n
  · obtain ⟨s, t, f, n, h⟩ := h
    have h' : Typed (wrapCall c) s (t.map (wrapElem n)) (f.map (wrapElem n)) n := by
      unfold wrapCall
      rw [h.rows]
      exact ⟨h.sels, by simp only [h.tp, Option.map_some], by simp only [h.fp, Option.map_some], rfl, h.quality⟩
    have hq : (wrapCall c).quality = c.quality := by unfold wrapCall; rw [h.rows]
    rw [newBits_typed h, newBits_typed h', hq]
    by_cases hn : n < 0
    · rw [if_pos hn, if_pos hn]
    · rw [if_neg hn, if_neg hn]
      have hnn : (n.toNat : Int) = n := Int.toNat_of_nonneg (by omega)
      have m := fun l => markBits_wrap l (List.replicate n.toNat false)
      simp only [List.length_replicate, hnn] at m
      rw [m, m, List.length_map, List.length_map]
  · have h' : ¬ ∃ s t f n, Typed (wrapCall c) s t f n := by
      rintro ⟨s, t, f, n, h1, h2, h3, h4, h5⟩
      apply h
      unfold wrapCall at h1 h2 h3 h4 h5
      cases hr : c.rows with
      | int k =>
        rw [hr] at h1 h2 h3 h4 h5
        simp only at h1 h2 h3 h4 h5
        cases ht : c.tp with
        | none => rw [ht] at h2; cases h2
        | some t0 => cases hf : c.fp with
          | none => rw [hf] at h3; cases h3
          | some f0 => exact ⟨s, t0, f0, k, h1, ht, hf, hr, h5⟩
      | _ => rw [hr] at h4; simp only at h4; rw [hr] at h4; cases h4
    rw [(C93_new_bits_errors c).1 h, (C93_new_bits_errors (wrapCall c)).1 h']

/-- C93: with bitsets, whole programs (results and exceptions) do not distinguish a negative index from the row it stands for. -/
theorem C93_wrap (p : Prog σ) : p.wrap.bits = p.bits := by
  induction p with
  | new c => simp only [Prog.wrap, Prog.bits, Prog.eval, newBits_wrap]
  | join a b m d z iha ihb =>
    simp only [Prog.bits, Prog.wrap, Prog.eval] at iha ihb ⊢
    rw [iha, ihb]
  | setQuality a q ih =>
    simp only [Prog.bits, Prog.wrap, Prog.eval] at ih ⊢
    rw [ih]

/-- C93: `join` and `compute_quality_value`: an argument of a wrong type is `TypeError`; the quality of a join is what the measure returns for the
dictionary with tp and fp of the join, whatever tp and fp the dictionary had, and must be an `int` or a `float`; a result of another type is `TypeError`
in `join` although `compute_quality_value` returns it; the vertical lists themselves are not changed (values). -/
theorem C93_join {Seq : Type} (inter : Seq → Seq → Seq) (size : Seq → Nat) (a : VL σ Seq) (c : JoinCall σ Seq) :
    ((c.other = none ∨ c.measure = none ∨ c.params = none ∨ c.noneIf0 = none) → join inter size a c = .error .typeError) ∧
    (∀ b m d z, c = ⟨some b, some m, some d, some z⟩ →
      (a.rows ≠ b.rows → join inter size a c = .error .verticalListSize) ∧
      (a.rows = b.rows → z = true → size (inter a.tpSeq b.tpSeq) = 0 → size (inter a.fpSeq b.fpSeq) = 0 → join inter size a c = .ok none) ∧
      (a.rows = b.rows → (z = false ∨ 0 < size (inter a.tpSeq b.tpSeq) + size (inter a.fpSeq b.fpSeq)) →
        (b.sels = [] → join inter size a c = .error .indexError) ∧
        (b.sels ≠ [] → ∀ e, m (vlParams d (size (inter a.tpSeq b.tpSeq)) (size (inter a.fpSeq b.fpSeq))) = .error e → join inter size a c = .error e) ∧
        (b.sels ≠ [] → ∀ q, m (vlParams d (size (inter a.tpSeq b.tpSeq)) (size (inter a.fpSeq b.fpSeq))) = .ok q →
          (¬ IsNumber q → join inter size a c = .error .typeError) ∧
          (IsNumber q → ∃ s v, b.sels.getLast? = some s ∧ join inter size a c = .ok (some v) ∧ v.sels = a.sels ++ [s] ∧ v.rows = a.rows ∧
            v.quality = q ∧ v.tp = size (inter a.tpSeq b.tpSeq) ∧ v.fp = size (inter a.fpSeq b.fpSeq) ∧
            v.tpSeq = inter a.tpSeq b.tpSeq ∧ v.fpSeq = inter a.fpSeq b.fpSeq)))) ∧
    (∀ m d, computeQuality (some m) (some d) a = m (vlParams d a.tp a.fp)) ∧
    (∀ m d, m = none ∨ d = none → computeQuality m d a = .error .typeError) := by
  refine ⟨?_, ?_, fun _ _ => rfl, ?_⟩
  · obtain ⟨b, m, d, z⟩ := c
    cases b <;> cases m <;> cases d <;> cases z <;> simp [join]
  · rintro b m d z rfl
    refine ⟨fun hr => by simp only [join]; rw [if_pos hr], ?_, ?_⟩
    · intro hr hz h1 h2
      subst hz
      simp only [join]
      rw [if_neg (not_not.2 hr), if_neg (by simp [h1, h2])]
    · intro hr hz
      have hcond : (!z || decide (size (inter a.tpSeq b.tpSeq) + size (inter a.fpSeq b.fpSeq) > 0)) = true := by
        rcases hz with rfl | hz
        · rfl
        · rw [decide_eq_true hz]; simp
      simp only [join]
      rw [if_neg (not_not.2 hr), if_pos hcond]
      refine ⟨fun hs => by rw [hs]; rfl, ?_, ?_⟩
      · intro hs e he
        rw [List.getLast?_eq_some_getLast hs]
        simp only [he]
      · intro hs q hq
        rw [List.getLast?_eq_some_getLast hs]
        simp only [hq]
        constructor
        · intro hn
          rw [if_pos (by rw [isNumber_iff] at hn; simpa using hn)]
        · intro hn
          rw [if_neg (by rw [(isNumber_iff q).1 hn]; simp)]
          exact ⟨_, _, rfl, rfl, rfl, rfl, rfl, rfl, rfl, rfl, rfl⟩
  · rintro m d (rfl | rfl)
    · rfl
    · cases m <;> rfl

/-! ## witnesses -/

def witnessCall (t : List Elem) : Call Nat := ⟨some [1], some t, some [], .int 3, .int 0⟩
def witnessJoin (t u : List Elem) : Prog Nat := .join (.new (witnessCall t)) (.new (witnessCall u)) (fun _ => .ok (.int 0)) [] false

/-- what a program shows: tp and n -/
def seen {Seq : Type} : Except PyErr (Option (VL Nat Seq)) → Option (Option (Nat × Nat))
  | .ok (some v) => some (some (v.tp, v.tp + v.fp))
  | .ok none => some none
  | .error _ => none

/-- C93: without the restriction the implementations differ: a negative index is another element of a set but the same row of a bitset (2 and -1 of 3
rows), and a number out of range is accepted by sets only. With a repeated row number both say tp = 2 for one row, until the list is joined (with itself:
tp = 1). -/
theorem C93_differ :
    seen (witnessJoin [.int 2] [.int (-1)]).sets = some (some (0, 0)) ∧ seen (witnessJoin [.int 2] [.int (-1)]).bits = some (some (1, 1)) ∧
    seen (Prog.new (witnessCall [.int 3])).sets = some (some (1, 1)) ∧ seen (Prog.new (witnessCall [.int 3])).bits = none ∧
    (Prog.new (witnessCall [.int 1, .int 1])).Calls RowNumbers ∧
    seen (Prog.new (witnessCall [.int 1, .int 1])).sets = some (some (2, 2)) ∧ seen (Prog.new (witnessCall [.int 1, .int 1])).bits = some (some (2, 2)) ∧
    seen (witnessJoin [.int 1, .int 1] [.int 1, .int 1]).sets = some (some (1, 1)) ∧
    seen (witnessJoin [.int 1, .int 1] [.int 1, .int 1]).bits = some (some (1, 1)) := by
  refine ⟨by decide +kernel, by decide +kernel, by decide +kernel, by decide +kernel, ?_, by decide +kernel, by decide +kernel, by decide +kernel, by decide +kernel⟩
  intro n hn
  cases hn
  refine ⟨by decide, ?_⟩
  rintro l (hl | hl) <;> cases hl <;> intro e he <;> simp at he
  exact ⟨1, he, by decide, by decide⟩

/-- a text as a row number: accepted by sets, `TypeError` with bitsets; a dictionary: refused by both -/
example : seen (Prog.new (witnessCall [.other 0 true])).sets = some (some (1, 1)) ∧ newBits (witnessCall [.other 0 true]) = .error .typeError ∧
    newSets (witnessCall [.other 0 false]) = .error .typeError := by decide +kernel

/-- a measure that returns `True`: `join` refuses it -/
example : join interSets List.length (⟨[1], [], [], 0, 0, 3, .int 0⟩ : VL Nat (List Elem))
    ⟨some ⟨[1], [], [], 0, 0, 3, .int 0⟩, some (fun _ => .ok (.bool true)), some [], some false⟩ = .error .typeError := by decide +kernel

/-- wrapping turns `-1` into the last row -/
example : wrapCall (witnessCall [.int (-1), .int 0, .int (-4)]) = witnessCall [.int 2, .int 0, .int (-4)] := rfl

end VListAny
end Verif

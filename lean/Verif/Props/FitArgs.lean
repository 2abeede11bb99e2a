import Verif.Model.FitArgs
/-! Property C90: `fit` with arguments of any type. -/
namespace Verif
open FitArgs

namespace Spec
/-- the data frame has only columns of texts, and one with the name `n` -/
def GoodFrame (df : Frame) (n : Str) : Prop := (∀ c ∈ df.cols, ∀ v ∈ c.2, v.isStr = true) ∧ ∃ c ∈ df.cols, c.1 = n

/-- the (first) column with the name `n` has the text `w` in some row -/
def HasCell (df : Frame) (n w : Str) : Prop := ∃ col, df.cols.lookup n = some col ∧ Val.str w ∈ col
end Spec
open Spec

theorem nominal_iff (df : Frame) : df.nominal = true ↔ ∀ c ∈ df.cols, ∀ v ∈ c.2, v.isStr = true := by
  simp [Frame.nominal, List.all_eq_true]

theorem lookup_some_iff {β} (l : List (Str × β)) (n : Str) : (∃ x, l.lookup n = some x) ↔ ∃ c ∈ l, c.1 = n := by
  induction l with
  | nil => simp
  | cons c l ih =>
    obtain ⟨k, x⟩ := c
    rw [List.lookup_cons]
    by_cases h : n = k
    · subst h; simp
    · have hb : (n == k) = false := by simpa using h
      simp only [hb, ih, List.mem_cons]
      constructor
      · rintro ⟨c, hc, e⟩; exact ⟨c, .inr hc, e⟩
      · rintro ⟨c, rfl | hc, e⟩
        · exact absurd e.symm h
        · exact ⟨c, hc, e⟩

theorem good_iff (df : Frame) (n : Str) : GoodFrame df n ↔ df.nominal = true ∧ ∃ col, df.cols.lookup n = some col := by
  rw [GoodFrame, nominal_iff, lookup_some_iff]

theorem any_cell (col : List Val) (w : Str) : col.any (Item.str w).eqVal = true ↔ Val.str w ∈ col := by
  rw [List.any_eq_true]
  constructor
  · rintro ⟨v, hv, h⟩
    cases v with
    | str s => have : s = w := by simpa [Item.eqVal, Val.eq] using h
               rw [← this]; exact hv
    | int z => simp [Item.eqVal, Val.eq] at h
    | flt f => simp [Item.eqVal, Val.eq] at h
  · intro h; exact ⟨_, h, by simp [Item.eqVal, Val.eq]⟩

theorem any_scalar (col : List Val) (k : Nat) : col.any (Item.scalar k).eqVal = false := by
  rw [List.any_eq_false]; intro v _; simp [Item.eqVal]

theorem lookup_runs (df : Frame) (items : List Item) (b : Bool) (df' : Frame) (n : Str) (v : Item) :
    lookupTarget df items b = .runs df' n v ↔ df' = df ∧ (∃ rest, items = .str n :: v :: rest) ∧ ∃ col, df.cols.lookup n = some col := by
  unfold lookupTarget
  rcases items with _ | ⟨i, rest⟩
  · simp
  · cases i with
    | scalar k => simp
    | str m =>
      simp only [column?]
      cases h : df.cols.lookup m with
      | none =>
        simp only [reduceCtorEq, false_iff, not_and]
        rintro - ⟨r, hr⟩ ⟨col, hc⟩
        cases hr
        rw [h] at hc; cases hc
      | some col =>
        rcases rest with _ | ⟨w, rest⟩
        · simp
        · simp only [Entry.runs.injEq]
          constructor
          · rintro ⟨rfl, rfl, rfl⟩; exact ⟨rfl, ⟨_, rfl⟩, _, h⟩
          · rintro ⟨rfl, ⟨r, hr⟩, _⟩; cases hr; exact ⟨rfl, rfl, rfl⟩

/-- **C90.** For arguments of any type: `fit` gets past its checks exactly when the first argument is a data frame with text columns only (with a row, for the list algorithms), the second a tuple
whose first element is the name of a column, and: for SDMap, SDMapStar, VLSD, GMSL, PSLD and DSLM there is a second element (of whatever type; further ones are ignored); for BSD and QFinder there are
exactly two elements; for IDSD the second element is a text of the target column; for SDIGA the same, and there are exactly two. -/
theorem C90_runs (a t : Arg) (df : Frame) (n : Str) (v : Item) :
    (sdmap a t = .runs df n v ↔ a = .frame df ∧ (∃ rest, t = .tuple (.str n :: v :: rest)) ∧ GoodFrame df n) ∧
    (vlsd a t = .runs df n v ↔ a = .frame df ∧ (∃ rest, t = .tuple (.str n :: v :: rest)) ∧ GoodFrame df n) ∧
    (lists a t = .runs df n v ↔ a = .frame df ∧ (∃ rest, t = .tuple (.str n :: v :: rest)) ∧ GoodFrame df n ∧ 0 < df.nrows) ∧
    (bsd a t = .runs df n v ↔ a = .frame df ∧ t = .tuple [.str n, v] ∧ GoodFrame df n) ∧
    (qfinder a t = .runs df n v ↔ a = .frame df ∧ t = .tuple [.str n, v] ∧ GoodFrame df n) ∧
    (idsd a t = .runs df n v ↔ a = .frame df ∧ (∃ rest, t = .tuple (.str n :: v :: rest)) ∧ GoodFrame df n ∧ ∃ w, v = .str w ∧ HasCell df n w) ∧
    (sdiga a t = .runs df n v ↔ a = .frame df ∧ t = .tuple [.str n, v] ∧ GoodFrame df n ∧ ∃ w, v = .str w ∧ HasCell df n w) := by
  simp only [good_iff]
  cases a with
  | tuple _ => simp [sdmap, vlsd, lists, bsd, qfinder, idsd, sdiga]
  | other _ => simp [sdmap, vlsd, lists, bsd, qfinder, idsd, sdiga]
  | frame d =>
    cases t with
    | frame _ => simp [sdmap, vlsd, lists, bsd, qfinder, idsd, sdiga]; split <;> simp
    | other _ => simp [sdmap, vlsd, lists, bsd, qfinder, idsd, sdiga]; split <;> simp
    | tuple items =>
      simp only [Arg.frame.injEq, Arg.tuple.injEq]
      have base : ∀ b, ((if !d.nominal then Entry.refused .datasetAttributeType false else lookupTarget d items b) = .runs df n v ↔
          d = df ∧ (∃ rest, items = .str n :: v :: rest) ∧ df.nominal = true ∧ ∃ col, df.cols.lookup n = some col) := by
        intro b
        cases hn : d.nominal with
        | false =>
          simp only [Bool.not_false, if_true, reduceCtorEq, false_iff]
          rintro ⟨rfl, _, h, _⟩; rw [hn] at h; cases h
        | true =>
          simp only [Bool.not_true, Bool.false_eq_true, if_false, lookup_runs]
          constructor
          · rintro ⟨rfl, h1, h2⟩; exact ⟨rfl, h1, hn, h2⟩
          · rintro ⟨rfl, h1, _, h2⟩; exact ⟨rfl, h1, h2⟩
      refine ⟨base false, base true, ?_, ?_, ?_, ?_, ?_⟩
      · simp only [lists]
        by_cases h0 : d.nrows = 0
        · rw [if_pos h0]
          simp only [reduceCtorEq, false_iff]
          rintro ⟨rfl, _, _, h⟩; omega
        · rw [if_neg h0, base]
          constructor
          · rintro ⟨rfl, h1, h2, h3⟩; exact ⟨rfl, h1, ⟨h2, h3⟩, by omega⟩
          · rintro ⟨rfl, h1, ⟨h2, h3⟩, _⟩; exact ⟨rfl, h1, h2, h3⟩
      · simp only [bsd]
        by_cases h2 : items.length = 2
        · rw [if_neg (by simpa using h2)]
          obtain ⟨x, y, rfl⟩ := List.length_eq_two.1 h2
          cases x with
          | scalar k => simp
          | str m => rw [base]; simp
        · rw [if_pos h2]
          simp only [reduceCtorEq, false_iff]
          rintro ⟨_, rfl, _⟩; exact h2 rfl
      · simp only [qfinder]
        by_cases h2 : items.length = 2
        · rw [if_neg (by simpa using h2 : ¬ items.length ≠ 2), base]
          obtain ⟨x, y, rfl⟩ := List.length_eq_two.1 h2
          simp
        · rw [if_pos h2]
          have : (if (!d.nominal) = true then Entry.refused .datasetAttributeType false else .refused .inconsistentParameters false) ≠ .runs df n v := by split <;> simp
          simp only [this, false_iff]
          rintro ⟨_, rfl, _⟩; exact h2 rfl
      · simp only [idsd]
        cases hn : d.nominal with
        | false =>
          simp only [Bool.not_false, if_true, reduceCtorEq, false_iff]
          rintro ⟨rfl, _, ⟨h, _⟩, _⟩; rw [hn] at h; cases h
        | true =>
          simp only [Bool.not_true, Bool.false_eq_true, if_false]
          rcases items with _ | ⟨i, rest⟩
          · simp
          · cases i with
            | scalar k => simp
            | str m =>
              simp only [column?]
              cases h : d.cols.lookup m with
              | none =>
                simp only [reduceCtorEq, false_iff]
                rintro ⟨rfl, ⟨r, hr⟩, ⟨_, col, hc⟩, _⟩
                cases hr; rw [h] at hc; cases hc
              | some col =>
                rcases rest with _ | ⟨w, rest⟩
                · simp
                · simp only
                  cases w with
                  | scalar k =>
                    rw [any_scalar]
                    simp only [Bool.false_eq_true, if_false, reduceCtorEq, false_iff]
                    rintro ⟨rfl, ⟨r, hr⟩, _, w, hw, _⟩
                    cases hr; cases hw
                  | str w =>
                    by_cases hc : Val.str w ∈ col
                    · rw [if_pos ((any_cell col w).2 hc)]
                      simp only [Entry.runs.injEq]
                      constructor
                      · rintro ⟨rfl, rfl, rfl⟩; exact ⟨rfl, ⟨_, rfl⟩, ⟨hn, _, h⟩, w, rfl, col, h, hc⟩
                      · rintro ⟨rfl, ⟨r, hr⟩, _⟩; cases hr; exact ⟨rfl, rfl, rfl⟩
                    · rw [if_neg (fun h => hc ((any_cell col w).1 h))]
                      simp only [reduceCtorEq, false_iff]
                      rintro ⟨rfl, ⟨r, hr⟩, _, u, hu, c', hc', hm⟩
                      cases hr; cases hu
                      rw [h] at hc'; cases hc'; exact hc hm
      · simp only [sdiga]
        rcases items with _ | ⟨x, _ | ⟨y, _ | ⟨z, rest⟩⟩⟩
        · simp
        · simp
        · cases x with
          | scalar k => cases y <;> simp
          | str m =>
            cases y with
            | scalar k =>
              simp only [reduceCtorEq, false_iff]
              rintro ⟨rfl, hr, _, w, hw, _⟩
              cases hr; cases hw
            | str w =>
              cases hn : d.nominal with
              | false =>
                simp only [Bool.not_false, if_true, reduceCtorEq, false_iff]
                rintro ⟨rfl, _, ⟨h, _⟩, _⟩; rw [hn] at h; cases h
              | true =>
                simp only [Bool.not_true, Bool.false_eq_true, if_false, column?]
                cases h : d.cols.lookup m with
                | none =>
                  simp only [reduceCtorEq, false_iff]
                  rintro ⟨rfl, hr, ⟨_, col, hc⟩, _⟩
                  cases hr; rw [h] at hc; cases hc
                | some col =>
                  simp only
                  by_cases hc : Val.str w ∈ col
                  · rw [if_pos ((any_cell col w).2 hc)]
                    simp only [Entry.runs.injEq]
                    constructor
                    · rintro ⟨rfl, rfl, rfl⟩; exact ⟨rfl, rfl, ⟨hn, _, h⟩, w, rfl, col, h, hc⟩
                    · rintro ⟨rfl, hr, _⟩; cases hr; exact ⟨rfl, rfl, rfl⟩
                  · rw [if_neg (fun h => hc ((any_cell col w).1 h))]
                    simp only [reduceCtorEq, false_iff]
                    rintro ⟨rfl, hr, _, u, hu, c', hc', hm⟩
                    cases hr; cases hu
                    rw [h] at hc'; cases hc'; exact hc hm
        · simp only [reduceCtorEq, false_iff]
          rintro ⟨_, hr, _⟩
          simp at hr

/-- the errors of the look-up, by the items -/
theorem lookup_refused (df : Frame) (items : List Item) (b b' : Bool) (e : PyErr) (h : lookupTarget df items b = .refused e b') :
    b' = b ∧ ((e = .indexError ∧ (items = [] ∨ ∃ n, items = [.str n] ∧ ∃ c ∈ df.cols, c.1 = n)) ∨
      (e = .keyError ∧ ((∃ k rest, items = .scalar k :: rest) ∨ ∃ n rest, items = .str n :: rest ∧ ¬ ∃ c ∈ df.cols, c.1 = n))) := by
  unfold lookupTarget at h
  rcases items with _ | ⟨i, rest⟩
  · cases h; exact ⟨rfl, .inl ⟨rfl, .inl rfl⟩⟩
  · cases i with
    | scalar k => cases h; exact ⟨rfl, .inr ⟨rfl, .inl ⟨k, rest, rfl⟩⟩⟩
    | str m =>
      simp only [column?] at h
      cases hl : df.cols.lookup m with
      | none =>
        rw [hl] at h; cases h
        refine ⟨rfl, .inr ⟨rfl, .inr ⟨m, rest, rfl, ?_⟩⟩⟩
        rw [← lookup_some_iff, hl]; simp
      | some col =>
        rw [hl] at h
        rcases rest with _ | ⟨w, rest⟩
        · cases h
          exact ⟨rfl, .inl ⟨rfl, .inr ⟨m, rfl, (lookup_some_iff _ _).1 ⟨col, hl⟩⟩⟩⟩
        · cases h

namespace Spec
/-- the first argument is a data frame, the second a tuple -/
def RightTypes (a t : Arg) : Prop := (∃ df, a = .frame df) ∧ ∃ items, t = .tuple items
/-- the data frame has a column that is not a column of texts -/
def HasNumbers (df : Frame) : Prop := ∃ c ∈ df.cols, ∃ v ∈ c.2, v.isStr = false
/-- the data frame has a column with the name `n` -/
def HasColumn (df : Frame) (n : Str) : Prop := ∃ c ∈ df.cols, c.1 = n
end Spec

theorem numbers_iff (df : Frame) : df.nominal = false ↔ HasNumbers df := by
  rw [← Bool.not_eq_true, nominal_iff]
  unfold HasNumbers
  push Not
  constructor
  · rintro ⟨c, hc, v, hv, h⟩; exact ⟨c, hc, v, hv, by simpa using h⟩
  · rintro ⟨c, hc, v, hv, h⟩; exact ⟨c, hc, v, hv, by simp [h]⟩

/-- C90: what a refused call of SDMap, SDMapStar, VLSD or a list algorithm raises, in the order of the checks: `TypeError` unless a data frame and a tuple are given (the list algorithms refuse an empty
data frame with `ValueError` first), `DatasetAttributeTypeError` if some column is not text, `IndexError` for a tuple that is too short, `KeyError` if its first element is not the name of a column. -/
theorem C90_errors (a t : Arg) (e : PyErr) (b : Bool) :
    (sdmap a t = .refused e b → b = false ∧ ((e = .typeError ∧ ¬ RightTypes a t) ∨ (e = .datasetAttributeType ∧ RightTypes a t ∧ ∃ df, a = .frame df ∧ HasNumbers df) ∨
      ∃ df items, a = .frame df ∧ t = .tuple items ∧ ¬ HasNumbers df ∧
        ((e = .indexError ∧ (items = [] ∨ ∃ n, items = [.str n] ∧ HasColumn df n)) ∨
         (e = .keyError ∧ ((∃ k rest, items = .scalar k :: rest) ∨ ∃ n rest, items = .str n :: rest ∧ ¬ HasColumn df n))))) ∧
    (vlsd a t = .refused e b ↔ sdmap a t = .refused e false ∧ (b = true ↔ e = .indexError ∨ e = .keyError)) ∧
    (lists a t = .refused e b → b = false ∧ ((∃ df, a = .frame df ∧ df.nrows = 0 ∧ e = .valueError) ∨ ((∀ df, a = .frame df → df.nrows ≠ 0) ∧ sdmap a t = .refused e false))) := by
  have look : ∀ df items b, lookupTarget df items b = (match lookupTarget df items false with | .refused e _ => .refused e b | r => r) := by
    intro df items b
    unfold lookupTarget
    rcases items with _ | ⟨i, rest⟩
    · rfl
    · cases i with
      | scalar k => rfl
      | str m =>
        cases hc : column? df (.str m) with
        | none => simp [hc]
        | some col => cases rest <;> simp [hc]
  refine ⟨?_, ?_, ?_⟩
  · intro h
    cases a with
    | tuple _ => cases h; exact ⟨rfl, .inl ⟨rfl, fun ⟨⟨_, h⟩, _⟩ => by cases h⟩⟩
    | other _ => cases h; exact ⟨rfl, .inl ⟨rfl, fun ⟨⟨_, h⟩, _⟩ => by cases h⟩⟩
    | frame df =>
      cases t with
      | frame _ => cases h; exact ⟨rfl, .inl ⟨rfl, fun ⟨_, ⟨_, h⟩⟩ => by cases h⟩⟩
      | other _ => cases h; exact ⟨rfl, .inl ⟨rfl, fun ⟨_, ⟨_, h⟩⟩ => by cases h⟩⟩
      | tuple items =>
        simp only [sdmap] at h
        cases hn : df.nominal with
        | false =>
          simp only [hn, Bool.not_false, if_true] at h
          cases h
          exact ⟨rfl, .inr (.inl ⟨rfl, ⟨⟨_, rfl⟩, _, rfl⟩, df, rfl, (numbers_iff df).1 hn⟩)⟩
        | true =>
          simp only [hn, Bool.not_true, Bool.false_eq_true, if_false] at h
          obtain ⟨h1, h2⟩ := lookup_refused _ _ _ _ _ h
          exact ⟨h1, .inr (.inr ⟨df, items, rfl, rfl, by rw [← numbers_iff, hn]; simp, h2⟩)⟩
  · cases a with
    | tuple _ => simp only [vlsd, sdmap, Entry.refused.injEq]; constructor
                 · rintro ⟨rfl, rfl⟩; simp
                 · rintro ⟨⟨rfl, _⟩, h⟩; exact ⟨rfl, by cases b <;> simp_all⟩
    | other _ => simp only [vlsd, sdmap, Entry.refused.injEq]; constructor
                 · rintro ⟨rfl, rfl⟩; simp
                 · rintro ⟨⟨rfl, _⟩, h⟩; exact ⟨rfl, by cases b <;> simp_all⟩
    | frame df =>
      cases t with
      | frame _ => simp only [vlsd, sdmap, Entry.refused.injEq]; constructor
                   · rintro ⟨rfl, rfl⟩; simp
                   · rintro ⟨⟨rfl, _⟩, h⟩; exact ⟨rfl, by cases b <;> simp_all⟩
      | other _ => simp only [vlsd, sdmap, Entry.refused.injEq]; constructor
                   · rintro ⟨rfl, rfl⟩; simp
                   · rintro ⟨⟨rfl, _⟩, h⟩; exact ⟨rfl, by cases b <;> simp_all⟩
      | tuple items =>
        simp only [vlsd, sdmap]
        cases hn : df.nominal with
        | false =>
          simp only [Bool.not_false, if_true, Entry.refused.injEq]; constructor
          · rintro ⟨rfl, rfl⟩; simp
          · rintro ⟨⟨rfl, _⟩, h⟩; exact ⟨rfl, by cases b <;> simp_all⟩
        | true =>
          simp only [Bool.not_true, Bool.false_eq_true, if_false]
          rw [look df items true]
          cases hl : lookupTarget df items false with
          | runs d n v => simp
          | refused e' b' =>
            obtain ⟨h1, h2⟩ := lookup_refused _ _ _ _ _ hl
            subst h1
            simp only [Entry.refused.injEq, and_true]
            constructor
            · rintro ⟨rfl, rfl⟩
              refine ⟨rfl, fun _ => ?_, fun _ => rfl⟩
              rcases h2 with ⟨h, _⟩ | ⟨h, _⟩
              · exact .inl h
              · exact .inr h
            · rintro ⟨rfl, h⟩
              refine ⟨rfl, (h.2 ?_).symm⟩
              rcases h2 with ⟨h, _⟩ | ⟨h, _⟩
              · exact .inl h
              · exact .inr h
  · intro h
    cases a with
    | tuple _ => cases h; exact ⟨rfl, .inr ⟨fun _ h => (by cases h), rfl⟩⟩
    | other _ => cases h; exact ⟨rfl, .inr ⟨fun _ h => (by cases h), rfl⟩⟩
    | frame df =>
      simp only [lists] at h
      by_cases h0 : df.nrows = 0
      · rw [if_pos h0] at h; cases h; exact ⟨rfl, .inl ⟨df, rfl, h0, rfl⟩⟩
      · rw [if_neg h0] at h
        have hs : sdmap (.frame df) t = .refused e b := by
          cases t <;> exact h
        have hb : b = false := by
          cases t with
          | frame _ => cases h; rfl
          | other _ => cases h; rfl
          | tuple items =>
            simp only at h
            split at h
            · cases h; rfl
            · exact (lookup_refused _ _ _ _ _ h).1
        subst hb
        exact ⟨rfl, .inr ⟨fun _ hd => (by cases hd; exact h0), hs⟩⟩

/-- C90: a refused call of BSD, QFinder, IDSD or SDIGA has not opened the file. -/
theorem C90_file_kept (a t : Arg) (e : PyErr) (b : Bool) (h : bsd a t = .refused e b ∨ qfinder a t = .refused e b ∨ idsd a t = .refused e b ∨ sdiga a t = .refused e b) : b = false := by
  have look : ∀ df items, lookupTarget df items false = .refused e b → b = false := fun df items h => (lookup_refused _ _ _ _ _ h).1
  rcases h with h | h | h | h
  · unfold bsd at h
    split at h
    · split at h
      · split at h
        · cases h; rfl
        · split at h
          · split at h
            · cases h; rfl
            · exact look _ _ h
          · cases h; rfl
      · cases h; rfl
    · cases h; rfl
  · unfold qfinder at h
    split at h
    · split at h
      · split at h
        · cases h; rfl
        · split at h
          · cases h; rfl
          · exact look _ _ h
      · cases h; rfl
    · cases h; rfl
  · unfold idsd at h
    split at h
    · split at h
      · split at h
        · cases h; rfl
        · split at h
          · cases h; rfl
          · cases h; rfl
          · split at h
            · cases h; rfl
            · split at h
              · cases h; rfl
              · split at h
                · cases h
                · cases h; rfl
      · cases h; rfl
    · cases h; rfl
  · unfold sdiga at h
    split at h
    · split at h
      · split at h
        · split at h
          · cases h; rfl
          · split at h
            · cases h; rfl
            · split at h
              · cases h
              · cases h; rfl
        · cases h; rfl
        · cases h; rfl
      · cases h; rfl
    · cases h; rfl

/-- C90: the kinds of errors of BSD, QFinder, IDSD and SDIGA. `TypeError` for arguments of other types - except that SDIGA refuses what is not a data frame with `DatasetAttributeTypeError`; a tuple with
a length other than two is a `ValueError` for BSD and SDIGA, an `InconsistentMethodParametersError` for QFinder; a first element that is not a text is a `ValueError` for BSD, a `TypeError` for SDIGA. -/
theorem C90_kinds (a t : Arg) :
    ((∀ df, a ≠ .frame df) → bsd a t = .refused .typeError false ∧ qfinder a t = .refused .typeError false ∧ idsd a t = .refused .typeError false ∧ sdiga a t = .refused .datasetAttributeType false) ∧
    (∀ df, a = .frame df → (∀ items, t ≠ .tuple items) → bsd a t = .refused .typeError false ∧ qfinder a t = .refused .typeError false ∧ idsd a t = .refused .typeError false ∧ sdiga a t = .refused .typeError false) ∧
    (∀ df items, a = .frame df → t = .tuple items → items.length ≠ 2 → bsd a t = .refused .valueError false ∧ sdiga a t = .refused .valueError false ∧
      (¬ HasNumbers df → qfinder a t = .refused .inconsistentParameters false)) ∧
    (∀ df k v, a = .frame df → t = .tuple [.scalar k, v] → bsd a t = .refused .valueError false ∧ sdiga a t = .refused .typeError false ∧
      (¬ HasNumbers df → qfinder a t = .refused .keyError false ∧ idsd a t = .refused .valueError false)) ∧
    (∀ df n v, a = .frame df → t = .tuple [.str n, v] → HasNumbers df → bsd a t = .refused .datasetAttributeType false ∧ qfinder a t = .refused .datasetAttributeType false ∧
      idsd a t = .refused .datasetAttributeType false ∧ (∀ w, v = .str w → sdiga a t = .refused .datasetAttributeType false)) ∧
    (∀ df n v, a = .frame df → t = .tuple [.str n, v] → ¬ HasNumbers df → ¬ HasColumn df n → bsd a t = .refused .keyError false ∧ qfinder a t = .refused .keyError false ∧
      idsd a t = .refused .valueError false ∧ (∀ w, v = .str w → sdiga a t = .refused .keyError false)) ∧
    (∀ df n w, a = .frame df → t = .tuple [.str n, .str w] → ¬ HasNumbers df → HasColumn df n → ¬ HasCell df n w →
      idsd a t = .refused .valueError false ∧ sdiga a t = .refused .valueError false ∧ bsd a t = .runs df n (.str w) ∧ qfinder a t = .runs df n (.str w)) := by
  have nom : ∀ df, ¬ HasNumbers df → df.nominal = true := fun df h => by
    cases hn : df.nominal with
    | true => rfl
    | false => exact absurd ((numbers_iff df).1 hn) h
  refine ⟨?_, ?_, ?_, ?_, ?_, ?_, ?_⟩
  · intro h
    cases a with
    | frame df => exact absurd rfl (h df)
    | tuple _ => exact ⟨rfl, rfl, rfl, rfl⟩
    | other _ => exact ⟨rfl, rfl, rfl, rfl⟩
  · rintro df rfl h
    cases t with
    | tuple items => exact absurd rfl (h items)
    | frame _ => exact ⟨rfl, rfl, rfl, rfl⟩
    | other _ => exact ⟨rfl, rfl, rfl, rfl⟩
  · rintro df items rfl rfl h
    refine ⟨by simp [bsd, h], ?_, fun hn => by simp [qfinder, nom df hn, h]⟩
    rcases items with _ | ⟨x, _ | ⟨y, _ | ⟨z, rest⟩⟩⟩
    · rfl
    · cases x <;> rfl
    · exact absurd rfl h
    · cases x <;> cases y <;> rfl
  · rintro df k v rfl rfl
    exact ⟨rfl, by cases v <;> rfl, fun hn => ⟨by simp [qfinder, nom df hn, lookupTarget], by simp [idsd, nom df hn]⟩⟩
  · rintro df n v rfl rfl h
    have hn := (numbers_iff df).2 h
    refine ⟨by simp [bsd, hn], by simp [qfinder, hn], by simp [idsd, hn], ?_⟩
    rintro w rfl
    simp [sdiga, hn]
  · rintro df n v rfl rfl h hc
    have hn := nom df h
    have hl : df.cols.lookup n = none := by
      cases hl : df.cols.lookup n with
      | none => rfl
      | some col => exact absurd ((lookup_some_iff _ _).1 ⟨col, hl⟩) hc
    refine ⟨by simp [bsd, hn, lookupTarget, column?, hl], by simp [qfinder, hn, lookupTarget, column?, hl], by simp [idsd, hn, column?, hl], ?_⟩
    rintro w rfl
    simp [sdiga, hn, column?, hl]
  · rintro df n w rfl rfl h hc hw
    have hn := nom df h
    obtain ⟨col, hl⟩ := (lookup_some_iff _ _).2 hc
    have ha : col.any (Item.str w).eqVal = false := by
      rw [← Bool.not_eq_true, any_cell]
      exact fun hm => hw ⟨col, hl, hm⟩
    exact ⟨by simp [idsd, hn, column?, hl, ha], by simp [sdiga, hn, column?, hl, ha], by simp [bsd, hn, lookupTarget, column?, hl], by simp [qfinder, hn, lookupTarget, column?, hl]⟩

/-- C90: with a data frame and a pair of texts, a call that is refused here ends with that error in the models of the other properties, and the other models have no check of their own left when the call
goes on: the columns are texts and the target column is there. -/
theorem C90_models (df : Frame) (n v : Str) :
    (∀ e b, sdmap (.frame df) (.tuple [.str n, .str v]) = .refused e b →
      (∀ cfg st, SDMapConfig.fit cfg st df (n, v) = .error e) ∧ (∀ cfg st, SDMapStarConfig.fit cfg st df (n, v) = .error e) ∧
      (∀ (Seq : Type) (I : VLImpl Seq) cfg st, VLSDConfig.fit I cfg st df (n, v) = .error e) ∧ (∀ cfg st, BSDConfig.fit cfg st df (n, v) = .error e) ∧
      (∀ cfg st, QFinder.fit cfg st df (n, v) = .error e)) ∧
    (∀ e b, lists (.frame df) (.tuple [.str n, .str v]) = .refused e b → ∀ (G C : Type) (M : Miner G C) k cs, listFit M k df (n, v) cs = .error e) ∧
    (∀ e b, idsd (.frame df) (.tuple [.str n, .str v]) = .refused e b → ∀ cfg st, IDSD.fit cfg st df (n, v) = .error e) ∧
    (∀ e b, sdiga (.frame df) (.tuple [.str n, .str v]) = .refused e b → ∀ cfg o fuel st, SDIGA.fit cfg o fuel st df (n, v) = some (.error e)) ∧
    (∀ w, sdmap (.frame df) (.tuple [.str n, .str v]) = .runs df n w → df.nominal = true ∧ ∃ mask, targetMask df (n, v) = .ok mask) := by
  cases hn : df.nominal with
  | false =>
    have e1 : sdmap (.frame df) (.tuple [.str n, .str v]) = .refused .datasetAttributeType false := by simp [sdmap, hn]
    have e2 : idsd (.frame df) (.tuple [.str n, .str v]) = .refused .datasetAttributeType false := by simp [idsd, hn]
    have e3 : sdiga (.frame df) (.tuple [.str n, .str v]) = .refused .datasetAttributeType false := by simp [sdiga, hn]
    have e5 : ∀ order th, nominalResults order th df (n, v) = .error .datasetAttributeType := fun _ _ => by simp [nominalResults, hn]
    refine ⟨?_, ?_, ?_, ?_, ?_⟩
    · rintro e b h
      rw [e1] at h; cases h
      refine ⟨fun cfg st => ?_, fun cfg st => ?_, fun _ I cfg st => ?_, fun cfg st => ?_, fun cfg st => ?_⟩
      · unfold SDMapConfig.fit; rw [e5]
      · unfold SDMapStarConfig.fit; rw [e5]; simp [hn]
      · simp [VLSDConfig.fit, hn]
      · simp [BSDConfig.fit, hn]
      · simp [QFinder.fit, hn]
    · intro e b h G C M k cs
      unfold listFit
      simp only [lists] at h
      split at h
      · cases h; rename_i h0; simp [h0]
      · rename_i h0
        simp only [hn, Bool.not_false, if_true] at h
        cases h; simp [h0, hn]
    · rintro e b h cfg st; rw [e2] at h; cases h; simp [IDSD.fit, hn]
    · rintro e b h cfg o fuel st; rw [e3] at h; cases h; simp [SDIGA.fit, hn]
    · rintro w h; rw [e1] at h; cases h
  | true =>
    cases hl : df.cols.lookup n with
    | none =>
      have e1 : sdmap (.frame df) (.tuple [.str n, .str v]) = .refused .keyError false := by simp [sdmap, hn, lookupTarget, column?, hl]
      have e2 : idsd (.frame df) (.tuple [.str n, .str v]) = .refused .valueError false := by simp [idsd, hn, column?, hl]
      have e3 : sdiga (.frame df) (.tuple [.str n, .str v]) = .refused .keyError false := by simp [sdiga, hn, column?, hl]
      have e4 : targetMask df (n, v) = .error .keyError := by simp [targetMask, Frame.col, hl]
      have e5 : ∀ order th, nominalResults order th df (n, v) = .error .keyError := fun _ _ => by simp [nominalResults, hn, e4]
      refine ⟨?_, ?_, ?_, ?_, ?_⟩
      · rintro e b h
        rw [e1] at h; cases h
        refine ⟨fun cfg st => ?_, fun cfg st => ?_, fun _ I cfg st => ?_, fun cfg st => ?_, fun cfg st => ?_⟩
        · unfold SDMapConfig.fit; rw [e5]
        · unfold SDMapStarConfig.fit; rw [e5]; simp [hn, e4]
        · simp [VLSDConfig.fit, hn, e4]
        · simp [BSDConfig.fit, hn, e4]
        · simp [QFinder.fit, hn, e4]
      · intro e b h G C M k cs
        unfold listFit
        simp only [lists] at h
        split at h
        · cases h; rename_i h0; simp [h0]
        · rename_i h0
          simp only [hn, Bool.not_true, Bool.false_eq_true, if_false, lookupTarget, column?, hl] at h
          cases h; simp [h0, hn, e4]
      · rintro e b h cfg st; rw [e2] at h; cases h; simp [IDSD.fit, hn, e4]
      · rintro e b h cfg o fuel st; rw [e3] at h; cases h; simp [SDIGA.fit, hn, Frame.col, hl]
      · rintro w h; rw [e1] at h; cases h
    | some col =>
      have e1 : sdmap (.frame df) (.tuple [.str n, .str v]) = .runs df n (.str v) := by simp [sdmap, hn, lookupTarget, column?, hl]
      have e4 : targetMask df (n, v) = .ok (col.map (fun x => x.eq (.str v))) := by simp [targetMask, Frame.col, hl]
      refine ⟨fun e b h => (by rw [e1] at h; cases h), ?_, ?_, ?_, fun _ _ => ⟨rfl, _, e4⟩⟩
      · intro e b h G C M k cs
        unfold listFit
        simp only [lists] at h
        split at h
        · cases h; rename_i h0; simp [h0]
        · simp [hn, lookupTarget, column?, hl] at h
      · intro e b h cfg st
        simp only [idsd, hn, column?, hl, Bool.not_true, Bool.false_eq_true, if_false] at h
        split at h
        · cases h
        · rename_i ha
          cases h
          have : (col.map (fun x => x.eq (.str v))).any id = false := by
            rw [← Bool.not_eq_true]
            intro h'
            apply ha
            rw [List.any_map] at h'
            exact h'
          simp [IDSD.fit, hn, e4, this]
      · intro e b h cfg o fuel st
        simp only [sdiga, hn, column?, hl, Bool.not_true, Bool.false_eq_true, if_false] at h
        split at h
        · cases h
        · rename_i ha
          cases h
          have : col.any (fun x => x.eq (.str v)) = false := by
            rw [← Bool.not_eq_true]; exact ha
          simp [SDIGA.fit, hn, Frame.col, hl, this]

/-- C90: the positive rows of a call that goes on: with a text, the rows of C13 - C44 (`targetMask`), that is those whose cell is this text; with a target value of any other type, no row at all -
without an error. -/
theorem C90_positives (df : Frame) (n : Str) (v : Item) (h : HasColumn df n) :
    (∀ w, v = .str w → ∃ mask, Entry.mask (.runs df n v) = some mask ∧ targetMask df (n, w) = .ok mask) ∧
    (∀ k, v = .scalar k → ∃ mask, Entry.mask (.runs df n v) = some mask ∧ ∀ b ∈ mask, b = false) := by
  obtain ⟨col, hl⟩ := (lookup_some_iff _ _).2 h
  constructor
  · rintro w rfl
    refine ⟨col.map (fun x => x.eq (.str w)), ?_, by simp [targetMask, Frame.col, hl]⟩
    simp only [Entry.mask, column?, hl, Option.map_some]; rfl
  · rintro k rfl
    refine ⟨_, by simp only [Entry.mask, column?, hl, Option.map_some]; rfl, ?_⟩
    intro b hb
    simp only [List.mem_map] at hb
    obtain ⟨x, _, rfl⟩ := hb
    rfl

/-- a data frame for the examples -/
def argFrame : Frame := ⟨2, [(c!"a", [.str c!"x", .str c!"y"]), (c!"t", [.str c!"p", .str c!"q"])]⟩

/-- non-vacuity: a number as target value, three elements, one element, a tuple and a data frame exchanged -/
example : sdmap (.frame argFrame) (.tuple [.str c!"t", .scalar 0, .scalar 1]) = .runs argFrame c!"t" (.scalar 0) ∧ bsd (.frame argFrame) (.tuple [.str c!"t", .scalar 0, .scalar 1]) = .refused .valueError false ∧
    vlsd (.frame argFrame) (.tuple [.str c!"t"]) = .refused .indexError true ∧ sdiga (.tuple []) (.frame argFrame) = .refused .datasetAttributeType false ∧
    idsd (.frame argFrame) (.tuple [.str c!"t", .str c!"p"]) = .runs argFrame c!"t" (.str c!"p") := ⟨rfl, rfl, rfl, rfl, rfl⟩

end Verif

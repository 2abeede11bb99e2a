import Verif.Spec.Ctors
import Verif.Props.Registry
import Mathlib.Tactic.Linarith
import Mathlib.Tactic.Tauto
/-! C86: which arguments the constructors of the algorithms accept, which exception the others raise, and what the new object remembers. -/
namespace Verif
namespace Ctors

theorem isInt_iff (o : Obj) : o.isInt = true ↔ IsInt o := by cases o <;> simp [Obj.isInt, IsInt]
theorem isFloat_iff (o : Obj) : o.isFloat = true ↔ IsFloat o := by cases o <;> simp [Obj.isFloat, IsFloat]
theorem isBool_iff (o : Obj) : o.isBool = true ↔ IsBool o := by cases o <;> simp [Obj.isBool, IsBool]
theorem isStr_iff (o : Obj) : o.isStr = true ↔ IsText o := by cases o <;> simp [Obj.isStr, IsText]
theorem isDict_iff (o : Obj) : o.isDict = true ↔ IsDict o := by cases o <;> simp [Obj.isDict, IsDict]
theorem isNone_iff (o : Obj) : o.isNone = true ↔ o = .none := by cases o <;> simp [Obj.isNone]
theorem isMeasure_iff (o : Obj) : o.isMeasure = true ↔ IsMeasure o := by cases o <;> simp [Obj.isMeasure, IsMeasure]

theorem posInt_iff (o : Obj) : PosInt o ↔ IsInt o ∧ ¬ o.le 0 = true := by
  cases o <;> simp [PosInt, IsInt, Obj.le]

theorem unit_iff (o : Obj) : UnitOrNan o ↔ IsNumber o ∧ ¬ (o.lt 0 = true ∨ o.gt 1 = true) := by
  cases o with
  | float f => cases f <;> simp [UnitOrNan, IsNumber, IsInt, IsFloat, Value, Obj.lt, Obj.gt]
  | _ => simp [UnitOrNan, IsNumber, IsInt, IsFloat, Value, Obj.lt, Obj.gt]

theorem nonNeg_iff (o : Obj) : NonNegOrNan o ↔ IsNumber o ∧ ¬ o.lt 0 = true := by
  cases o with
  | float f => cases f <;> simp [NonNegOrNan, IsNumber, IsInt, IsFloat, Value, Obj.lt]
  | _ => simp [NonNegOrNan, IsNumber, IsInt, IsFloat, Value, Obj.lt]

theorem openUnit_iff (o : Obj) : OpenUnitOrNan o ↔ IsFloat o ∧ ¬ (o.le 0 = true ∨ o.ge 1 = true) := by
  cases o with
  | float f => cases f <;> simp [OpenUnitOrNan, IsFloat, Obj.le, Obj.ge]
  | _ => simp [OpenUnitOrNan, IsFloat, Obj.le, Obj.ge]

theorem raiseIf_bind {α : Type} (c : Bool) (e : PyErr) (k : Unit → Except PyErr α) : (raiseIf c e >>= k) = if c = true then .error e else k () := by
  cases c <;> rfl

theorem ok_bind {α β : Type} (a : α) (k : α → Except PyErr β) : ((Except.ok a : Except PyErr α) >>= k) = k a := rfl
theorem error_bind {α β : Type} (e : PyErr) (k : α → Except PyErr β) : ((Except.error e : Except PyErr α) >>= k) = .error e := rfl

theorem notEstimate_measure {q o : Obj} (h : IsMeasure q) (h' : IsMeasure o) : (Declared q o ∧ notEstimate q o = .ok false) ∨ (¬ Declared q o ∧ notEstimate q o = .ok true) := by
  obtain ⟨i, n, es, rfl⟩ := h
  obtain ⟨i', n', es', rfl⟩ := h'
  by_cases hm : n ∈ es'
  · exact .inl ⟨⟨i, n, es, i', n', es', rfl, rfl, hm⟩, by simp [notEstimate, hm]⟩
  · refine .inr ⟨?_, by simp [notEstimate, hm]⟩
    rintro ⟨a, b, c, a', b', c', h1, h2, h3⟩
    cases h1; cases h2; exact hm h3

theorem notEstimate_other {q o : Obj} (h' : ¬ IsMeasure o) : notEstimate q o = .error .attributeError := by
  cases o <;> first | exact absurd ⟨_, _, _, rfl⟩ h' | (cases q <;> rfl)

theorem declared_measure {q o : Obj} (h : Declared q o) : IsMeasure o := by
  obtain ⟨i, n, es, i', n', es', -, rfl, -⟩ := h
  exact ⟨_, _, _, rfl⟩

theorem delCounts_eq (d : Dict Nat) : delCounts d = d.filter (fun e => e.1 ∉ [c!"tp", c!"fp", c!"TP", c!"FP"]) := by
  unfold delCounts Dict.del
  rw [List.filter_filter, List.filter_filter, List.filter_filter]
  apply List.filter_congr
  intro e _
  have a : kTp = c!"tp" := rfl
  have b : kFp = c!"fp" := rfl
  have c : kTP = c!"TP" := rfl
  have d : kFP = c!"FP" := rfl
  rw [a, b, c, d]
  generalize c!"tp" = x
  generalize c!"fp" = y
  generalize c!"TP" = z
  generalize c!"FP" = w
  rw [Bool.eq_iff_iff]
  simp [bne_iff_ne]
  tauto

theorem copy_dict {o : Obj} (h : IsDict o) : ∃ d, copyAndDelete o = .ok d ∧ ∀ d', Without o d' ↔ d' = d := by
  obtain ⟨d, rfl⟩ := h
  refine ⟨delCounts d, rfl, ?_⟩
  intro d'
  constructor
  · rintro ⟨d0, h, h'⟩
    cases h
    rw [delCounts_eq]; exact h'
  · rintro rfl
    exact ⟨d, rfl, delCounts_eq d⟩

theorem without_dict {o : Obj} {d : Dict Nat} (h : Without o d) : IsDict o := by
  obtain ⟨d0, rfl, -⟩ := h
  exact ⟨_, rfl⟩

theorem checkFile_bind {α : Type} {w p : Obj} (hw : IsBool w) (k : Unit → Except PyErr α) :
    (FileArgs w p ∧ (checkFile w p >>= k) = k ()) ∨ (¬ FileArgs w p ∧ (checkFile w p >>= k) = .error .valueError) := by
  obtain ⟨b, rfl⟩ := hw
  unfold checkFile FileArgs
  rw [raiseIf_bind]
  cases b <;> cases p <;> simp [Obj.truthy, Obj.isNone]

theorem path_iff {w p x : Obj} (hw : IsBool w) : Path w p x ↔ x = filePath w p := by
  obtain ⟨b, rfl⟩ := hw
  cases b <;> simp [Path, filePath, Obj.truthy]

theorem oneWay_iff (a b c : Obj) : oneWay a b c = true ↔ OneWay a b c := by
  cases a <;> cases b <;> cases c <;> simp [oneWay, OneWay, Obj.isNone]

theorem raise_cases {α : Type} {c : Bool} {P : Prop} (h : c = true ↔ ¬ P) {e : PyErr} {k : Unit → Except PyErr α} {r : Except PyErr α} (hr : (raiseIf c e >>= k) = r) :
    (¬ P ∧ r = .error e) ∨ (P ∧ k () = r) := by
  cases c with
  | false => exact .inr ⟨by_contra (fun hp => by simpa using h.2 hp), hr⟩
  | true => exact .inl ⟨h.1 rfl, hr.symm⟩

theorem nMeasure (o : Obj) : (!o.isMeasure) = true ↔ ¬ IsMeasure o := by rw [← isMeasure_iff]; simp
theorem nInt (o : Obj) : (!o.isInt) = true ↔ ¬ IsInt o := by rw [← isInt_iff]; simp
theorem nFloat (o : Obj) : (!o.isFloat) = true ↔ ¬ IsFloat o := by rw [← isFloat_iff]; simp
theorem nBool (o : Obj) : (!o.isBool) = true ↔ ¬ IsBool o := by rw [← isBool_iff]; simp
theorem nText (o : Obj) : (!o.isStr) = true ↔ ¬ IsText o := by rw [← isStr_iff]; simp
theorem nDict (o : Obj) : (!o.isDict) = true ↔ ¬ IsDict o := by rw [← isDict_iff]; simp
theorem nNumber (o : Obj) : (!o.isInt && !o.isFloat) = true ↔ ¬ IsNumber o := by unfold IsNumber; rw [← isInt_iff, ← isFloat_iff]; simp
theorem nNumber' (o : Obj) : (!o.isFloat && !o.isInt) = true ↔ ¬ IsNumber o := by rw [Bool.and_comm, nNumber]
theorem nIntOrNone (o : Obj) : (!o.isInt && !o.isNone) = true ↔ ¬ IsIntOrNone o := by unfold IsIntOrNone; rw [← isInt_iff, ← isNone_iff]; simp
theorem nTextOrNone (o : Obj) : (!o.isStr && !o.isNone) = true ↔ ¬ IsTextOrNone o := by unfold IsTextOrNone; rw [← isStr_iff, ← isNone_iff]; simp
theorem nTextOrNone' (o : Obj) : (!o.isNone && !o.isStr) = true ↔ ¬ IsTextOrNone o := by rw [Bool.and_comm, nTextOrNone]
theorem nOneWay (a b c : Obj) : (!oneWay a b c) = true ↔ ¬ OneWay a b c := by rw [← oneWay_iff]; simp
theorem nFile {w : Obj} (hw : IsBool w) (p : Obj) : (w.truthy && p.isNone) = true ↔ ¬ FileArgs w p := by
  obtain ⟨b, rfl⟩ := hw
  cases b <;> cases p <;> simp [FileArgs, Obj.truthy, Obj.isNone]
/-- once the type is right: a positive `int` -/
theorem nPos {o : Obj} (h : IsInt o) : o.le 0 = true ↔ ¬ PosInt o := by rw [posInt_iff]; tauto
theorem nUnit {o : Obj} (h : IsNumber o) : (o.lt 0 || o.gt 1) = true ↔ ¬ UnitOrNan o := by rw [unit_iff, Bool.or_eq_true]; tauto
theorem nNonNeg {o : Obj} (h : IsNumber o) : o.lt 0 = true ↔ ¬ NonNegOrNan o := by rw [nonNeg_iff]; tauto
theorem nOpenUnit {o : Obj} (h : IsFloat o) : (o.le 0 || o.ge 1) = true ↔ ¬ OpenUnitOrNan o := by rw [openUnit_iff, Bool.or_eq_true]; tauto
theorem nIn (o : Obj) (l : List Str) : (!o.isIn l) = true ↔ ¬ ∃ s ∈ l, o = .str s := by
  cases o <;> simp [Obj.isIn]

/-- the types of the arguments of `SDMap` -/
def SDMapTypes (quality minQuality minTp minFp minN extra write path : Obj) : Prop :=
  IsMeasure quality ∧ IsNumber minQuality ∧ IsIntOrNone minTp ∧ IsIntOrNone minFp ∧ IsIntOrNone minN ∧ IsDict extra ∧ IsBool write ∧ IsTextOrNone path

/-- C86, SDMap: an object exactly when all arguments have the documented types, there is a path if results are to be written, and the thresholds are given in one of the two ways; it remembers the arguments, without the four counts among the
additional parameters. Otherwise a wrong type has priority (`TypeError`), then the missing path (`ValueError`), then the thresholds. -/
theorem C86_sdmap (quality minQuality minTp minFp minN extra write path : Obj) :
    (∀ x, sdmapInit quality minQuality minTp minFp minN extra write path = .ok x ↔
      SDMapTypes quality minQuality minTp minFp minN extra write path ∧ FileArgs write path ∧ OneWay minTp minFp minN ∧
      ∃ d p, Without extra d ∧ Path write path p ∧ x = ⟨quality, minQuality, minTp, minFp, minN, d, p⟩) ∧
    (∀ e, sdmapInit quality minQuality minTp minFp minN extra write path = .error e ↔
      (e = .typeError ∧ ¬ SDMapTypes quality minQuality minTp minFp minN extra write path) ∨
      (e = .valueError ∧ SDMapTypes quality minQuality minTp minFp minN extra write path ∧ ¬ FileArgs write path) ∨
      (e = .inconsistentParameters ∧ SDMapTypes quality minQuality minTp minFp minN extra write path ∧ FileArgs write path ∧ ¬ OneWay minTp minFp minN)) := by
  generalize hT : SDMapTypes quality minQuality minTp minFp minN extra write path = T
  unfold SDMapTypes at hT
  generalize hr : sdmapInit quality minQuality minTp minFp minN extra write path = r
  unfold sdmapInit at hr
  rcases raise_cases (nMeasure _) hr with ⟨h1, hr⟩ | ⟨h1, hr⟩
  · have hn : ¬ T := by rw [← hT]; exact fun h => h1 h.1
    subst hr; simp [hn, eq_comm]
  rcases raise_cases (nNumber _) hr with ⟨h2, hr⟩ | ⟨h2, hr⟩
  · have hn : ¬ T := by rw [← hT]; exact fun h => h2 h.2.1
    subst hr; simp [hn, eq_comm]
  rcases raise_cases (nIntOrNone _) hr with ⟨h3, hr⟩ | ⟨h3, hr⟩
  · have hn : ¬ T := by rw [← hT]; exact fun h => h3 h.2.2.1
    subst hr; simp [hn, eq_comm]
  rcases raise_cases (nIntOrNone _) hr with ⟨h4, hr⟩ | ⟨h4, hr⟩
  · have hn : ¬ T := by rw [← hT]; exact fun h => h4 h.2.2.2.1
    subst hr; simp [hn, eq_comm]
  rcases raise_cases (nIntOrNone _) hr with ⟨h5, hr⟩ | ⟨h5, hr⟩
  · have hn : ¬ T := by rw [← hT]; exact fun h => h5 h.2.2.2.2.1
    subst hr; simp [hn, eq_comm]
  rcases raise_cases (nDict _) hr with ⟨h6, hr⟩ | ⟨h6, hr⟩
  · have hn : ¬ T := by rw [← hT]; exact fun h => h6 h.2.2.2.2.2.1
    subst hr; simp [hn, eq_comm]
  rcases raise_cases (nBool _) hr with ⟨h7, hr⟩ | ⟨h7, hr⟩
  · have hn : ¬ T := by rw [← hT]; exact fun h => h7 h.2.2.2.2.2.2.1
    subst hr; simp [hn, eq_comm]
  rcases raise_cases (nTextOrNone _) hr with ⟨h8, hr⟩ | ⟨h8, hr⟩
  · have hn : ¬ T := by rw [← hT]; exact fun h => h8 h.2.2.2.2.2.2.2
    subst hr; simp [hn, eq_comm]
  have hp : T := by rw [← hT]; exact ⟨h1, h2, h3, h4, h5, h6, h7, h8⟩
  obtain ⟨d, hd, hd'⟩ := copy_dict h6
  rcases raise_cases (nFile h7 _) hr with ⟨h9, hr⟩ | ⟨h9, hr⟩
  · subst hr; simp [hp, h9, eq_comm]
  rcases raise_cases (nOneWay _ _ _) hr with ⟨h10, hr⟩ | ⟨h10, hr⟩
  · subst hr; simp [hp, h9, h10, eq_comm]
  rw [hd] at hr
  subst hr
  simp [hp, h9, h10, ok_bind, hd', path_iff h7, eq_comm]

theorem estimate_cases {α : Type} {q o : Obj} (hq : IsMeasure q) {k : Unit → Except PyErr α} {r : Except PyErr α}
    (hr : (notEstimate q o >>= fun bad => raiseIf bad .valueError >>= k) = r) :
    (¬ IsMeasure o ∧ ¬ Declared q o ∧ r = .error .attributeError) ∨ (IsMeasure o ∧ ¬ Declared q o ∧ r = .error .valueError) ∨ (IsMeasure o ∧ Declared q o ∧ k () = r) := by
  by_cases h : IsMeasure o
  · rcases notEstimate_measure hq h with ⟨h1, h2⟩ | ⟨h1, h2⟩
    · rw [h2] at hr; exact .inr (.inr ⟨h, h1, hr⟩)
    · rw [h2] at hr; exact .inr (.inl ⟨h, h1, hr.symm⟩)
  · rw [notEstimate_other h] at hr
    exact .inl ⟨h, fun h' => h (declared_measure h'), hr.symm⟩

theorem copy_cases (o : Obj) : (IsDict o ∧ (∀ i, o ≠ .copyable i) ∧ ∃ d, copyAndDelete o = .ok d ∧ ∀ d', Without o d' ↔ d' = d) ∨
    (¬ IsDict o ∧ (∃ i, o = .copyable i) ∧ copyAndDelete o = .error .typeError) ∨ (¬ IsDict o ∧ (∀ i, o ≠ .copyable i) ∧ copyAndDelete o = .error .attributeError) := by
  by_cases h : IsDict o
  · refine .inl ⟨h, ?_, copy_dict h⟩
    obtain ⟨d, rfl⟩ := h
    simp
  · cases o with
    | dict d => exact absurd ⟨d, rfl⟩ h
    | copyable i => exact .inr (.inl ⟨h, ⟨i, rfl⟩, rfl⟩)
    | _ => exact .inr (.inr ⟨h, by simp, rfl⟩)

theorem nGe1 {o : Obj} (h : IsInt o) : o.lt 1 = true ↔ ¬ PosInt o := by
  obtain ⟨i, rfl⟩ := h
  simp only [Obj.lt, PosInt, decide_eq_true_eq, Obj.int.injEq]
  constructor
  · rintro h ⟨j, rfl, hj⟩
    have : (1 : Rat) ≤ i := by exact_mod_cast hj
    linarith
  · intro h
    by_contra hc
    have hc' : (1 : Rat) ≤ i := not_lt.1 hc
    exact h ⟨i, rfl, by exact_mod_cast hc'⟩

theorem nCats {o : Obj} (h : IsInt o) : (o.lt (-1) || o.eqNum 0) = true ↔ ¬ ∃ i : Int, o = .int i ∧ (i = -1 ∨ 0 < i) := by
  obtain ⟨i, rfl⟩ := h
  have e : ((i : Rat) < -1) ↔ i < -1 := by constructor <;> intro h <;> exact_mod_cast h
  simp only [Obj.lt, Obj.eqNum, Bool.or_eq_true, decide_eq_true_eq, Obj.int.injEq, e, Rat.intCast_eq_zero_iff]
  constructor
  · rintro h ⟨j, rfl, hj⟩; omega
  · intro h
    by_contra hc
    exact h ⟨i, rfl, by omega⟩

theorem nCatsQ {o : Obj} (h : IsInt o) : o.lt (-1) = true ↔ ¬ ∃ i : Int, o = .int i ∧ -1 ≤ i := by
  obtain ⟨i, rfl⟩ := h
  have e : ((i : Rat) < -1) ↔ i < -1 := by constructor <;> intro h <;> exact_mod_cast h
  simp only [Obj.lt, decide_eq_true_eq, Obj.int.injEq, e]
  constructor
  · rintro h ⟨j, rfl, hj⟩; omega
  · intro h
    by_contra hc
    exact h ⟨i, rfl, by omega⟩

theorem truthy_iff (o : Obj) : o.truthy = true ↔ ¬ Falsy o := by
  cases o with
  | float f => cases f <;> simp [Obj.truthy, Falsy]
  | _ => simp [Obj.truthy, Falsy]

theorem nFileQ (w p : Obj) : (w.truthy && p.isNone) = true ↔ ¬ (Falsy w ∨ p ≠ .none) := by
  rw [Bool.and_eq_true, truthy_iff, isNone_iff]; tauto

/-- the types of the arguments of `SDMapStar` that are checked -/
def SDMapStarTypes (quality minQuality minTp minFp minN extra write path num : Obj) : Prop :=
  IsMeasure quality ∧ IsNumber minQuality ∧ IsIntOrNone minTp ∧ IsIntOrNone minFp ∧ IsIntOrNone minN ∧ IsDict extra ∧ IsBool write ∧ IsInt num ∧ IsTextOrNone path

/-- C86, SDMapStar: as SDMap, and the second measure must declare itself an estimate of the first one. The types of the estimate and of its additional parameters are not checked: with another object in their place the constructor raises
`AttributeError`, or `TypeError` for a list or a set as additional parameters. -/
theorem C86_sdmapstar (quality estimate minQuality minTp minFp minN extra extraOE write path num : Obj) :
    (∀ x, sdmapStarInit quality estimate minQuality minTp minFp minN extra extraOE write path num = .ok x ↔
      SDMapStarTypes quality minQuality minTp minFp minN extra write path num ∧ FileArgs write path ∧ Declared quality estimate ∧ OneWay minTp minFp minN ∧ IsDict extraOE ∧
      ∃ d d' p, Without extra d ∧ Without extraOE d' ∧ Path write path p ∧ x = ⟨⟨quality, minQuality, minTp, minFp, minN, d, p⟩, estimate, d', num⟩) ∧
    (∀ e, sdmapStarInit quality estimate minQuality minTp minFp minN extra extraOE write path num = .error e ↔
      (e = .typeError ∧ (¬ SDMapStarTypes quality minQuality minTp minFp minN extra write path num ∨
        (FileArgs write path ∧ Declared quality estimate ∧ OneWay minTp minFp minN ∧ ∃ i, extraOE = .copyable i))) ∨
      (e = .valueError ∧ SDMapStarTypes quality minQuality minTp minFp minN extra write path num ∧ (¬ FileArgs write path ∨ (IsMeasure estimate ∧ ¬ Declared quality estimate))) ∨
      (e = .attributeError ∧ SDMapStarTypes quality minQuality minTp minFp minN extra write path num ∧ FileArgs write path ∧
        (¬ IsMeasure estimate ∨ (Declared quality estimate ∧ OneWay minTp minFp minN ∧ ¬ IsDict extraOE ∧ ∀ i, extraOE ≠ .copyable i))) ∨
      (e = .inconsistentParameters ∧ SDMapStarTypes quality minQuality minTp minFp minN extra write path num ∧ FileArgs write path ∧ Declared quality estimate ∧ ¬ OneWay minTp minFp minN)) := by
  generalize hT : SDMapStarTypes quality minQuality minTp minFp minN extra write path num = T
  unfold SDMapStarTypes at hT
  generalize hr : sdmapStarInit quality estimate minQuality minTp minFp minN extra extraOE write path num = r
  unfold sdmapStarInit at hr
  rcases raise_cases (nMeasure _) hr with ⟨h1, hr⟩ | ⟨h1, hr⟩
  · have hn : ¬ T := by rw [← hT]; exact fun h => h1 h.1
    subst hr; simp [hn, eq_comm]
  rcases raise_cases (nNumber _) hr with ⟨h2, hr⟩ | ⟨h2, hr⟩
  · have hn : ¬ T := by rw [← hT]; exact fun h => h2 h.2.1
    subst hr; simp [hn, eq_comm]
  rcases raise_cases (nIntOrNone _) hr with ⟨h3, hr⟩ | ⟨h3, hr⟩
  · have hn : ¬ T := by rw [← hT]; exact fun h => h3 h.2.2.1
    subst hr; simp [hn, eq_comm]
  rcases raise_cases (nIntOrNone _) hr with ⟨h4, hr⟩ | ⟨h4, hr⟩
  · have hn : ¬ T := by rw [← hT]; exact fun h => h4 h.2.2.2.1
    subst hr; simp [hn, eq_comm]
  rcases raise_cases (nIntOrNone _) hr with ⟨h5, hr⟩ | ⟨h5, hr⟩
  · have hn : ¬ T := by rw [← hT]; exact fun h => h5 h.2.2.2.2.1
    subst hr; simp [hn, eq_comm]
  rcases raise_cases (nDict _) hr with ⟨h6, hr⟩ | ⟨h6, hr⟩
  · have hn : ¬ T := by rw [← hT]; exact fun h => h6 h.2.2.2.2.2.1
    subst hr; simp [hn, eq_comm]
  rcases raise_cases (nBool _) hr with ⟨h7, hr⟩ | ⟨h7, hr⟩
  · have hn : ¬ T := by rw [← hT]; exact fun h => h7 h.2.2.2.2.2.2.1
    subst hr; simp [hn, eq_comm]
  rcases raise_cases (nInt _) hr with ⟨h8, hr⟩ | ⟨h8, hr⟩
  · have hn : ¬ T := by rw [← hT]; exact fun h => h8 h.2.2.2.2.2.2.2.1
    subst hr; simp [hn, eq_comm]
  rcases raise_cases (nTextOrNone _) hr with ⟨h9, hr⟩ | ⟨h9, hr⟩
  · have hn : ¬ T := by rw [← hT]; exact fun h => h9 h.2.2.2.2.2.2.2.2
    subst hr; simp [hn, eq_comm]
  have hp : T := by rw [← hT]; exact ⟨h1, h2, h3, h4, h5, h6, h7, h8, h9⟩
  obtain ⟨d, hd, hd'⟩ := copy_dict h6
  rcases raise_cases (nFile h7 _) hr with ⟨h10, hr⟩ | ⟨h10, hr⟩
  · subst hr; simp [hp, h10, eq_comm]
  rcases estimate_cases h1 hr with ⟨E1, E2, hr⟩ | ⟨E1, E2, hr⟩ | ⟨E1, E2, hr⟩
  · subst hr; simp [hp, h10, E1, E2, eq_comm]
  · subst hr; simp [hp, h10, E1, E2, eq_comm]
  rcases raise_cases (nOneWay _ _ _) hr with ⟨h11, hr⟩ | ⟨h11, hr⟩
  · subst hr; simp [hp, h10, E1, E2, h11, eq_comm]
  rw [hd] at hr
  rcases copy_cases extraOE with ⟨c1, c2, d2, c3, c4⟩ | ⟨c1, c2, c3⟩ | ⟨c1, c2, c3⟩
  · rw [ok_bind, c3] at hr
    subst hr; simp [hp, h10, E1, E2, h11, c1, c2, ok_bind, hd', c4, path_iff h7, eq_comm]
  · rw [ok_bind, c3] at hr
    subst hr; simp [hp, h10, E1, E2, h11, c1, c2, error_bind, eq_comm]
  · rw [ok_bind, c3] at hr
    subst hr; simp [hp, h10, E1, E2, h11, c1, c2, error_bind, eq_comm]

/-- the types of the arguments of `BSD`, `CBSD` and `CPBSD` that are checked -/
def BSDTypes (minSupport quality num maxDepth extra write path : Obj) : Prop :=
  IsMeasure quality ∧ IsInt num ∧ IsInt maxDepth ∧ IsNumber minSupport ∧ IsDict extra ∧ IsBool write ∧ IsTextOrNone path

/-- C86, BSD, CBSD and CPBSD: the checked types, a path if results are to be written, a declared pair; no limits are checked (a negative number of subgroups, depth or support is accepted). The types of the estimate and of its additional
parameters are not checked: `AttributeError`, or `TypeError` for a list or a set. -/
theorem C86_bsd (minSupport quality estimate num maxDepth extra extraOE write path : Obj) :
    (∀ x, bsdInit minSupport quality estimate num maxDepth extra extraOE write path = .ok x ↔
      BSDTypes minSupport quality num maxDepth extra write path ∧ FileArgs write path ∧ Declared quality estimate ∧ IsDict extraOE ∧
      ∃ d d' p, Without extra d ∧ Without extraOE d' ∧ Path write path p ∧ x = ⟨minSupport, quality, estimate, num, maxDepth, d, d', p⟩) ∧
    (∀ e, bsdInit minSupport quality estimate num maxDepth extra extraOE write path = .error e ↔
      (e = .typeError ∧ (¬ BSDTypes minSupport quality num maxDepth extra write path ∨ (FileArgs write path ∧ Declared quality estimate ∧ ∃ i, extraOE = .copyable i))) ∨
      (e = .valueError ∧ BSDTypes minSupport quality num maxDepth extra write path ∧ (¬ FileArgs write path ∨ (IsMeasure estimate ∧ ¬ Declared quality estimate))) ∨
      (e = .attributeError ∧ BSDTypes minSupport quality num maxDepth extra write path ∧ FileArgs write path ∧
        (¬ IsMeasure estimate ∨ (Declared quality estimate ∧ ¬ IsDict extraOE ∧ ∀ i, extraOE ≠ .copyable i)))) := by
  generalize hT : BSDTypes minSupport quality num maxDepth extra write path = T
  unfold BSDTypes at hT
  generalize hr : bsdInit minSupport quality estimate num maxDepth extra extraOE write path = r
  unfold bsdInit at hr
  rcases raise_cases (nMeasure _) hr with ⟨h1, hr⟩ | ⟨h1, hr⟩
  · have hn : ¬ T := by rw [← hT]; exact fun h => h1 h.1
    subst hr; simp [hn, eq_comm]
  rcases raise_cases (nInt _) hr with ⟨h2, hr⟩ | ⟨h2, hr⟩
  · have hn : ¬ T := by rw [← hT]; exact fun h => h2 h.2.1
    subst hr; simp [hn, eq_comm]
  rcases raise_cases (nInt _) hr with ⟨h3, hr⟩ | ⟨h3, hr⟩
  · have hn : ¬ T := by rw [← hT]; exact fun h => h3 h.2.2.1
    subst hr; simp [hn, eq_comm]
  rcases raise_cases (nNumber _) hr with ⟨h4, hr⟩ | ⟨h4, hr⟩
  · have hn : ¬ T := by rw [← hT]; exact fun h => h4 h.2.2.2.1
    subst hr; simp [hn, eq_comm]
  rcases raise_cases (nDict _) hr with ⟨h5, hr⟩ | ⟨h5, hr⟩
  · have hn : ¬ T := by rw [← hT]; exact fun h => h5 h.2.2.2.2.1
    subst hr; simp [hn, eq_comm]
  rcases raise_cases (nBool _) hr with ⟨h6, hr⟩ | ⟨h6, hr⟩
  · have hn : ¬ T := by rw [← hT]; exact fun h => h6 h.2.2.2.2.2.1
    subst hr; simp [hn, eq_comm]
  rcases raise_cases (nTextOrNone _) hr with ⟨h7, hr⟩ | ⟨h7, hr⟩
  · have hn : ¬ T := by rw [← hT]; exact fun h => h7 h.2.2.2.2.2.2
    subst hr; simp [hn, eq_comm]
  have hp : T := by rw [← hT]; exact ⟨h1, h2, h3, h4, h5, h6, h7⟩
  obtain ⟨d, hd, hd'⟩ := copy_dict h5
  rcases raise_cases (nFile h6 _) hr with ⟨h10, hr⟩ | ⟨h10, hr⟩
  · subst hr; simp [hp, h10, eq_comm]
  rcases estimate_cases h1 hr with ⟨E1, E2, hr⟩ | ⟨E1, E2, hr⟩ | ⟨E1, E2, hr⟩
  · subst hr; simp [hp, h10, E1, E2, eq_comm]
  · subst hr; simp [hp, h10, E1, E2, eq_comm]
  rw [hd] at hr
  rcases copy_cases extraOE with ⟨c1, c2, d2, c3, c4⟩ | ⟨c1, c2, c3⟩ | ⟨c1, c2, c3⟩
  · rw [ok_bind, c3] at hr
    subst hr; simp [hp, h10, E1, E2, c1, c2, ok_bind, hd', c4, path_iff h6, eq_comm]
  · rw [ok_bind, c3] at hr
    subst hr; simp [hp, h10, E1, E2, c1, c2, error_bind, eq_comm]
  · rw [ok_bind, c3] at hr
    subst hr; simp [hp, h10, E1, E2, c1, c2, error_bind, eq_comm]

/-- C86, VLSD: everything is checked. The exception is that of the first check that fails: the measures and the minimum quality, the declared pair, the other types before the file arguments, the three options, the file arguments. -/
theorem C86_vlsd (quality minQuality estimate minEstimate extra extraOE sort1 sortOther impl write path : Obj) :
    let T1 := IsMeasure quality ∧ IsNumber minQuality ∧ IsMeasure estimate
    let T2 := IsNumber minEstimate ∧ IsDict extra ∧ IsDict extraOE
    let V := (∃ s ∈ [c!"quality-ascending", c!"quality-descending", c!"no-order"], sort1 = .str s) ∧
      (∃ s ∈ [c!"quality-ascending", c!"quality-descending", c!"no-order"], sortOther = .str s) ∧ (∃ s ∈ [c!"bitsets", c!"sets"], impl = .str s)
    let T3 := IsBool write ∧ IsTextOrNone path
    (∀ x, vlsdInit quality minQuality estimate minEstimate extra extraOE sort1 sortOther impl write path = .ok x ↔
      T1 ∧ Declared quality estimate ∧ T2 ∧ V ∧ T3 ∧ FileArgs write path ∧
      ∃ d d' p, Without extra d ∧ Without extraOE d' ∧ Path write path p ∧ x = ⟨quality, minQuality, estimate, minEstimate, d, d', sort1, sortOther, impl, p⟩) ∧
    (∀ e, vlsdInit quality minQuality estimate minEstimate extra extraOE sort1 sortOther impl write path = .error e ↔
      (e = .typeError ∧ (¬ T1 ∨ (T1 ∧ Declared quality estimate ∧ ¬ T2) ∨ (T1 ∧ Declared quality estimate ∧ T2 ∧ V ∧ ¬ T3))) ∨
      (e = .valueError ∧ ((T1 ∧ ¬ Declared quality estimate) ∨ (T1 ∧ Declared quality estimate ∧ T2 ∧ ¬ V) ∨ (T1 ∧ Declared quality estimate ∧ T2 ∧ V ∧ T3 ∧ ¬ FileArgs write path)))) := by
  intro T1 T2 V T3
  obtain ⟨T, hT⟩ : ∃ T, T1 = T := ⟨_, rfl⟩
  obtain ⟨U, hU⟩ : ∃ U, T2 = U := ⟨_, rfl⟩
  obtain ⟨W, hV⟩ : ∃ W, V = W := ⟨_, rfl⟩
  obtain ⟨Y, hY⟩ : ∃ Y, T3 = Y := ⟨_, rfl⟩
  rw [hT, hU, hV, hY]
  simp only [T1, T2, V, T3] at hT hU hV hY
  generalize hr : vlsdInit quality minQuality estimate minEstimate extra extraOE sort1 sortOther impl write path = r
  unfold vlsdInit at hr
  rcases raise_cases (nMeasure _) hr with ⟨h1, hr⟩ | ⟨h1, hr⟩
  · have hn : ¬ T := by rw [← hT]; exact fun h => h1 h.1
    subst hr; simp [hn, eq_comm]
  rcases raise_cases (nNumber _) hr with ⟨h2, hr⟩ | ⟨h2, hr⟩
  · have hn : ¬ T := by rw [← hT]; exact fun h => h2 h.2.1
    subst hr; simp [hn, eq_comm]
  rcases raise_cases (nMeasure _) hr with ⟨h3, hr⟩ | ⟨h3, hr⟩
  · have hn : ¬ T := by rw [← hT]; exact fun h => h3 h.2.2
    subst hr; simp [hn, eq_comm]
  have hp : T := by rw [← hT]; exact ⟨h1, h2, h3⟩
  rcases estimate_cases h1 hr with ⟨E1, E2, hr⟩ | ⟨E1, E2, hr⟩ | ⟨E1, E2, hr⟩
  · exact absurd h3 E1
  · subst hr; simp [hp, E2, eq_comm]
  rcases raise_cases (nNumber _) hr with ⟨h4, hr⟩ | ⟨h4, hr⟩
  · have hn : ¬ U := by rw [← hU]; tauto
    subst hr; simp [hp, E2, hn, eq_comm]
  rcases raise_cases (nDict _) hr with ⟨h5, hr⟩ | ⟨h5, hr⟩
  · have hn : ¬ U := by rw [← hU]; tauto
    subst hr; simp [hp, E2, hn, eq_comm]
  rcases raise_cases (nDict _) hr with ⟨h6, hr⟩ | ⟨h6, hr⟩
  · have hn : ¬ U := by rw [← hU]; tauto
    subst hr; simp [hp, E2, hn, eq_comm]
  have hu : U := by rw [← hU]; exact ⟨h4, h5, h6⟩
  rcases raise_cases (nIn _ _) hr with ⟨h7, hr⟩ | ⟨h7, hr⟩
  · have hn : ¬ W := by rw [← hV]; exact fun h => h7 h.1
    subst hr; simp [hp, E2, hu, hn, eq_comm]
  rcases raise_cases (nIn _ _) hr with ⟨h8, hr⟩ | ⟨h8, hr⟩
  · have hn : ¬ W := by rw [← hV]; exact fun h => h8 h.2.1
    subst hr; simp [hp, E2, hu, hn, eq_comm]
  rcases raise_cases (nIn _ _) hr with ⟨h9, hr⟩ | ⟨h9, hr⟩
  · have hn : ¬ W := by rw [← hV]; exact fun h => h9 h.2.2
    subst hr; simp [hp, E2, hu, hn, eq_comm]
  have hv : W := by rw [← hV]; exact ⟨h7, h8, h9⟩
  rcases raise_cases (nBool _) hr with ⟨h10, hr⟩ | ⟨h10, hr⟩
  · have hn : ¬ Y := by rw [← hY]; tauto
    subst hr; simp [hp, E2, hu, hv, hn, eq_comm]
  rcases raise_cases (nTextOrNone _) hr with ⟨h11, hr⟩ | ⟨h11, hr⟩
  · have hn : ¬ Y := by rw [← hY]; tauto
    subst hr; simp [hp, E2, hu, hv, hn, eq_comm]
  have hy : Y := by rw [← hY]; exact ⟨h10, h11⟩
  rcases raise_cases (nFile h10 _) hr with ⟨h12, hr⟩ | ⟨h12, hr⟩
  · subst hr; simp [hp, E2, hu, hv, hy, h12, eq_comm]
  obtain ⟨d, hd, hd'⟩ := copy_dict h5
  obtain ⟨d2, hd2, hd2'⟩ := copy_dict h6
  rw [hd, ok_bind, hd2] at hr
  subst hr
  simp [hp, E2, hu, hv, hy, h12, ok_bind, hd', hd2', path_iff h10, eq_comm]

/-- C86, IDSD: an object exactly when all arguments have the documented types and values in range; a wrong type has priority. `nan` passes every range check. -/
theorem C86_idsd (num cats maxC cov orT pT absT ratioT write path : Obj) :
    let T := IsInt num ∧ IsInt cats ∧ IsInt maxC ∧ IsNumber cov ∧ IsNumber orT ∧ IsNumber pT ∧ IsNumber absT ∧ IsNumber ratioT ∧ IsBool write ∧ IsTextOrNone path
    let V := PosInt num ∧ (∃ i : Int, cats = .int i ∧ (i = -1 ∨ 0 < i)) ∧ UnitOrNan cov ∧ NonNegOrNan orT ∧ UnitOrNan pT ∧ NonNegOrNan absT ∧ NonNegOrNan ratioT ∧ FileArgs write path
    (∀ x, idsdInit num cats maxC cov orT pT absT ratioT write path = .ok x ↔ T ∧ V ∧ ∃ p, Path write path p ∧ x = ⟨num, cats, maxC, cov, orT, pT, absT, ratioT, p⟩) ∧
    (∀ e, idsdInit num cats maxC cov orT pT absT ratioT write path = .error e ↔ (e = .typeError ∧ ¬ T) ∨ (e = .valueError ∧ T ∧ ¬ V)) := by
  intro T0 V0
  obtain ⟨T, hT⟩ : ∃ T, T0 = T := ⟨_, rfl⟩
  obtain ⟨V, hV⟩ : ∃ V, V0 = V := ⟨_, rfl⟩
  rw [hT, hV]
  simp only [T0, V0] at hT hV
  generalize hr : idsdInit num cats maxC cov orT pT absT ratioT write path = r
  unfold idsdInit at hr
  rcases raise_cases (nInt _) hr with ⟨h1, hr⟩ | ⟨h1, hr⟩
  · have hn : ¬ T := by rw [← hT]; exact fun h => h1 h.1
    subst hr; simp [hn, eq_comm]
  rcases raise_cases (nInt _) hr with ⟨h2, hr⟩ | ⟨h2, hr⟩
  · have hn : ¬ T := by rw [← hT]; exact fun h => h2 h.2.1
    subst hr; simp [hn, eq_comm]
  rcases raise_cases (nInt _) hr with ⟨h3, hr⟩ | ⟨h3, hr⟩
  · have hn : ¬ T := by rw [← hT]; exact fun h => h3 h.2.2.1
    subst hr; simp [hn, eq_comm]
  rcases raise_cases (nNumber' _) hr with ⟨h4, hr⟩ | ⟨h4, hr⟩
  · have hn : ¬ T := by rw [← hT]; exact fun h => h4 h.2.2.2.1
    subst hr; simp [hn, eq_comm]
  rcases raise_cases (nNumber' _) hr with ⟨h5, hr⟩ | ⟨h5, hr⟩
  · have hn : ¬ T := by rw [← hT]; exact fun h => h5 h.2.2.2.2.1
    subst hr; simp [hn, eq_comm]
  rcases raise_cases (nNumber' _) hr with ⟨h6, hr⟩ | ⟨h6, hr⟩
  · have hn : ¬ T := by rw [← hT]; exact fun h => h6 h.2.2.2.2.2.1
    subst hr; simp [hn, eq_comm]
  rcases raise_cases (nNumber' _) hr with ⟨h7, hr⟩ | ⟨h7, hr⟩
  · have hn : ¬ T := by rw [← hT]; exact fun h => h7 h.2.2.2.2.2.2.1
    subst hr; simp [hn, eq_comm]
  rcases raise_cases (nNumber' _) hr with ⟨h8, hr⟩ | ⟨h8, hr⟩
  · have hn : ¬ T := by rw [← hT]; exact fun h => h8 h.2.2.2.2.2.2.2.1
    subst hr; simp [hn, eq_comm]
  rcases raise_cases (nBool _) hr with ⟨h9, hr⟩ | ⟨h9, hr⟩
  · have hn : ¬ T := by rw [← hT]; exact fun h => h9 h.2.2.2.2.2.2.2.2.1
    subst hr; simp [hn, eq_comm]
  rcases raise_cases (nTextOrNone' _) hr with ⟨h10, hr⟩ | ⟨h10, hr⟩
  · have hn : ¬ T := by rw [← hT]; exact fun h => h10 h.2.2.2.2.2.2.2.2.2
    subst hr; simp [hn, eq_comm]
  have hp : T := by rw [← hT]; exact ⟨h1, h2, h3, h4, h5, h6, h7, h8, h9, h10⟩
  rcases raise_cases (nGe1 h1) hr with ⟨g1, hr⟩ | ⟨g1, hr⟩
  · have hn : ¬ V := by rw [← hV]; exact fun h => g1 h.1
    subst hr; simp [hp, hn, eq_comm]
  rcases raise_cases (nCats h2) hr with ⟨g2, hr⟩ | ⟨g2, hr⟩
  · have hn : ¬ V := by rw [← hV]; exact fun h => g2 h.2.1
    subst hr; simp [hp, hn, eq_comm]
  rcases raise_cases (nUnit h4) hr with ⟨g3, hr⟩ | ⟨g3, hr⟩
  · have hn : ¬ V := by rw [← hV]; exact fun h => g3 h.2.2.1
    subst hr; simp [hp, hn, eq_comm]
  rcases raise_cases (nNonNeg h5) hr with ⟨g4, hr⟩ | ⟨g4, hr⟩
  · have hn : ¬ V := by rw [← hV]; exact fun h => g4 h.2.2.2.1
    subst hr; simp [hp, hn, eq_comm]
  rcases raise_cases (nUnit h6) hr with ⟨g5, hr⟩ | ⟨g5, hr⟩
  · have hn : ¬ V := by rw [← hV]; exact fun h => g5 h.2.2.2.2.1
    subst hr; simp [hp, hn, eq_comm]
  rcases raise_cases (nNonNeg h7) hr with ⟨g6, hr⟩ | ⟨g6, hr⟩
  · have hn : ¬ V := by rw [← hV]; exact fun h => g6 h.2.2.2.2.2.1
    subst hr; simp [hp, hn, eq_comm]
  rcases raise_cases (nNonNeg h8) hr with ⟨g7, hr⟩ | ⟨g7, hr⟩
  · have hn : ¬ V := by rw [← hV]; exact fun h => g7 h.2.2.2.2.2.2.1
    subst hr; simp [hp, hn, eq_comm]
  rcases raise_cases (nFile h9 _) hr with ⟨g8, hr⟩ | ⟨g8, hr⟩
  · have hn : ¬ V := by rw [← hV]; exact fun h => g8 h.2.2.2.2.2.2.2
    subst hr; simp [hp, hn, eq_comm]
  have hv : V := by rw [← hV]; exact ⟨g1, g2, g3, g4, g5, g6, g7, g8⟩
  subst hr
  simp [hp, hv, path_iff h9, eq_comm]

theorem pathQ_iff {w p x : Obj} : ((¬ Falsy w ∧ x = p) ∨ (Falsy w ∧ x = .none)) ↔ x = filePath w p := by
  unfold filePath
  by_cases h : Falsy w
  · have : ¬ w.truthy = true := by rw [truthy_iff]; tauto
    simp [h, this]
  · have : w.truthy = true := by rw [truthy_iff]; exact h
    simp [h, this]

/-- C86, QFinder: an object exactly when the numbers have the documented types and the categories and thresholds are in range (the number of subgroups is not checked), and there is a path if `write_results_in_file` counts as true; the types of the two file arguments are not checked. -/
theorem C86_qfinder (num cats maxC cov orT pT absT ratioT delta write path : Obj) :
    let T := IsInt num ∧ IsInt cats ∧ IsInt maxC ∧ IsNumber cov ∧ IsNumber orT ∧ IsNumber pT ∧ IsNumber absT ∧ IsNumber ratioT ∧ IsNumber delta
    let V := (∃ i : Int, cats = .int i ∧ -1 ≤ i) ∧ UnitOrNan cov ∧ NonNegOrNan orT ∧ UnitOrNan pT ∧ NonNegOrNan absT ∧ NonNegOrNan ratioT ∧ (Falsy write ∨ path ≠ .none)
    (∀ x, qfinderInit num cats maxC cov orT pT absT ratioT delta write path = .ok x ↔ T ∧ V ∧ ∃ p, ((¬ Falsy write ∧ p = path) ∨ (Falsy write ∧ p = .none)) ∧ x = ⟨num, cats, maxC, delta, cov, orT, pT, absT, ratioT, p⟩) ∧
    (∀ e, qfinderInit num cats maxC cov orT pT absT ratioT delta write path = .error e ↔ (e = .typeError ∧ ¬ T) ∨ (e = .valueError ∧ T ∧ ¬ V)) := by
  intro T0 V0
  obtain ⟨T, hT⟩ : ∃ T, T0 = T := ⟨_, rfl⟩
  obtain ⟨V, hV⟩ : ∃ V, V0 = V := ⟨_, rfl⟩
  rw [hT, hV]
  simp only [T0, V0] at hT hV
  generalize hr : qfinderInit num cats maxC cov orT pT absT ratioT delta write path = r
  unfold qfinderInit at hr
  rcases raise_cases (nInt _) hr with ⟨h1, hr⟩ | ⟨h1, hr⟩
  · have hn : ¬ T := by rw [← hT]; exact fun h => h1 h.1
    subst hr; simp [hn, eq_comm]
  rcases raise_cases (nInt _) hr with ⟨h2, hr⟩ | ⟨h2, hr⟩
  · have hn : ¬ T := by rw [← hT]; exact fun h => h2 h.2.1
    subst hr; simp [hn, eq_comm]
  rcases raise_cases (nInt _) hr with ⟨h3, hr⟩ | ⟨h3, hr⟩
  · have hn : ¬ T := by rw [← hT]; exact fun h => h3 h.2.2.1
    subst hr; simp [hn, eq_comm]
  rcases raise_cases (nNumber' _) hr with ⟨h4, hr⟩ | ⟨h4, hr⟩
  · have hn : ¬ T := by rw [← hT]; exact fun h => h4 h.2.2.2.1
    subst hr; simp [hn, eq_comm]
  rcases raise_cases (nNumber' _) hr with ⟨h5, hr⟩ | ⟨h5, hr⟩
  · have hn : ¬ T := by rw [← hT]; exact fun h => h5 h.2.2.2.2.1
    subst hr; simp [hn, eq_comm]
  rcases raise_cases (nNumber' _) hr with ⟨h6, hr⟩ | ⟨h6, hr⟩
  · have hn : ¬ T := by rw [← hT]; exact fun h => h6 h.2.2.2.2.2.1
    subst hr; simp [hn, eq_comm]
  rcases raise_cases (nNumber' _) hr with ⟨h7, hr⟩ | ⟨h7, hr⟩
  · have hn : ¬ T := by rw [← hT]; exact fun h => h7 h.2.2.2.2.2.2.1
    subst hr; simp [hn, eq_comm]
  rcases raise_cases (nNumber' _) hr with ⟨h8, hr⟩ | ⟨h8, hr⟩
  · have hn : ¬ T := by rw [← hT]; exact fun h => h8 h.2.2.2.2.2.2.2.1
    subst hr; simp [hn, eq_comm]
  rcases raise_cases (nNumber' _) hr with ⟨h9, hr⟩ | ⟨h9, hr⟩
  · have hn : ¬ T := by rw [← hT]; exact fun h => h9 h.2.2.2.2.2.2.2.2
    subst hr; simp [hn, eq_comm]
  have hp : T := by rw [← hT]; exact ⟨h1, h2, h3, h4, h5, h6, h7, h8, h9⟩
  rcases raise_cases (nCatsQ h2) hr with ⟨g1, hr⟩ | ⟨g1, hr⟩
  · have hn : ¬ V := by rw [← hV]; exact fun h => g1 h.1
    subst hr; simp [hp, hn, eq_comm]
  rcases raise_cases (nUnit h4) hr with ⟨g2, hr⟩ | ⟨g2, hr⟩
  · have hn : ¬ V := by rw [← hV]; exact fun h => g2 h.2.1
    subst hr; simp [hp, hn, eq_comm]
  rcases raise_cases (nNonNeg h5) hr with ⟨g3, hr⟩ | ⟨g3, hr⟩
  · have hn : ¬ V := by rw [← hV]; exact fun h => g3 h.2.2.1
    subst hr; simp [hp, hn, eq_comm]
  rcases raise_cases (nUnit h6) hr with ⟨g4, hr⟩ | ⟨g4, hr⟩
  · have hn : ¬ V := by rw [← hV]; exact fun h => g4 h.2.2.2.1
    subst hr; simp [hp, hn, eq_comm]
  rcases raise_cases (nNonNeg h7) hr with ⟨g5, hr⟩ | ⟨g5, hr⟩
  · have hn : ¬ V := by rw [← hV]; exact fun h => g5 h.2.2.2.2.1
    subst hr; simp [hp, hn, eq_comm]
  rcases raise_cases (nNonNeg h8) hr with ⟨g6, hr⟩ | ⟨g6, hr⟩
  · have hn : ¬ V := by rw [← hV]; exact fun h => g6 h.2.2.2.2.2.1
    subst hr; simp [hp, hn, eq_comm]
  rcases raise_cases (nFileQ _ _) hr with ⟨g7, hr⟩ | ⟨g7, hr⟩
  · have hn : ¬ V := by rw [← hV]; exact fun h => g7 h.2.2.2.2.2.2
    subst hr; simp [hp, hn, eq_comm]
  have hv : V := by rw [← hV]; exact ⟨g1, g2, g3, g4, g5, g6, g7⟩
  subst hr
  refine ⟨fun x => ?_, fun e => by simp [hp, hv]⟩
  simp only [pathQ_iff, hp, hv, true_and, Except.ok.injEq, exists_eq_left]
  exact eq_comm

/-- C86, SDIGA: an object exactly when all arguments have the documented types and values in range (the probabilities strictly between 0 and 1, although the messages say that 1 is allowed); a wrong type has priority: an `int` is not accepted as a weight. -/
theorem C86_sdiga (maxGen popSize crossover mutation confW supW minConf write path : Obj) :
    let T := IsInt maxGen ∧ IsInt popSize ∧ IsFloat crossover ∧ IsFloat mutation ∧ IsFloat supW ∧ IsFloat confW ∧ IsFloat minConf ∧ IsBool write ∧ IsTextOrNone path
    let V := FileArgs write path ∧ PosInt maxGen ∧ PosInt popSize ∧ OpenUnitOrNan crossover ∧ OpenUnitOrNan mutation ∧ NonNegOrNan supW ∧ NonNegOrNan confW ∧ NonNegOrNan minConf
    (∀ x, sdigaInit maxGen popSize crossover mutation confW supW minConf write path = .ok x ↔ T ∧ V ∧ ∃ p, Path write path p ∧ x = ⟨maxGen, popSize, crossover, mutation, supW, confW, minConf, p⟩) ∧
    (∀ e, sdigaInit maxGen popSize crossover mutation confW supW minConf write path = .error e ↔ (e = .typeError ∧ ¬ T) ∨ (e = .valueError ∧ T ∧ ¬ V)) := by
  intro T0 V0
  obtain ⟨T, hT⟩ : ∃ T, T0 = T := ⟨_, rfl⟩
  obtain ⟨V, hV⟩ : ∃ V, V0 = V := ⟨_, rfl⟩
  rw [hT, hV]
  simp only [T0, V0] at hT hV
  generalize hr : sdigaInit maxGen popSize crossover mutation confW supW minConf write path = r
  unfold sdigaInit at hr
  rcases raise_cases (nInt _) hr with ⟨h1, hr⟩ | ⟨h1, hr⟩
  · have hn : ¬ T := by rw [← hT]; exact fun h => h1 h.1
    subst hr; simp [hn, eq_comm]
  rcases raise_cases (nInt _) hr with ⟨h2, hr⟩ | ⟨h2, hr⟩
  · have hn : ¬ T := by rw [← hT]; exact fun h => h2 h.2.1
    subst hr; simp [hn, eq_comm]
  rcases raise_cases (nFloat _) hr with ⟨h3, hr⟩ | ⟨h3, hr⟩
  · have hn : ¬ T := by rw [← hT]; exact fun h => h3 h.2.2.1
    subst hr; simp [hn, eq_comm]
  rcases raise_cases (nFloat _) hr with ⟨h4, hr⟩ | ⟨h4, hr⟩
  · have hn : ¬ T := by rw [← hT]; exact fun h => h4 h.2.2.2.1
    subst hr; simp [hn, eq_comm]
  rcases raise_cases (nFloat _) hr with ⟨h5, hr⟩ | ⟨h5, hr⟩
  · have hn : ¬ T := by rw [← hT]; exact fun h => h5 h.2.2.2.2.1
    subst hr; simp [hn, eq_comm]
  rcases raise_cases (nFloat _) hr with ⟨h6, hr⟩ | ⟨h6, hr⟩
  · have hn : ¬ T := by rw [← hT]; exact fun h => h6 h.2.2.2.2.2.1
    subst hr; simp [hn, eq_comm]
  rcases raise_cases (nFloat _) hr with ⟨h7, hr⟩ | ⟨h7, hr⟩
  · have hn : ¬ T := by rw [← hT]; exact fun h => h7 h.2.2.2.2.2.2.1
    subst hr; simp [hn, eq_comm]
  rcases raise_cases (nBool _) hr with ⟨h8, hr⟩ | ⟨h8, hr⟩
  · have hn : ¬ T := by rw [← hT]; exact fun h => h8 h.2.2.2.2.2.2.2.1
    subst hr; simp [hn, eq_comm]
  rcases raise_cases (nTextOrNone _) hr with ⟨h9, hr⟩ | ⟨h9, hr⟩
  · have hn : ¬ T := by rw [← hT]; exact fun h => h9 h.2.2.2.2.2.2.2.2
    subst hr; simp [hn, eq_comm]
  have hp : T := by rw [← hT]; exact ⟨h1, h2, h3, h4, h5, h6, h7, h8, h9⟩
  rcases raise_cases (nFile h8 _) hr with ⟨g1, hr⟩ | ⟨g1, hr⟩
  · have hn : ¬ V := by rw [← hV]; exact fun h => g1 h.1
    subst hr; simp [hp, hn, eq_comm]
  rcases raise_cases (nPos h1) hr with ⟨g2, hr⟩ | ⟨g2, hr⟩
  · have hn : ¬ V := by rw [← hV]; exact fun h => g2 h.2.1
    subst hr; simp [hp, hn, eq_comm]
  rcases raise_cases (nPos h2) hr with ⟨g3, hr⟩ | ⟨g3, hr⟩
  · have hn : ¬ V := by rw [← hV]; exact fun h => g3 h.2.2.1
    subst hr; simp [hp, hn, eq_comm]
  rcases raise_cases (nOpenUnit h3) hr with ⟨g4, hr⟩ | ⟨g4, hr⟩
  · have hn : ¬ V := by rw [← hV]; exact fun h => g4 h.2.2.2.1
    subst hr; simp [hp, hn, eq_comm]
  rcases raise_cases (nOpenUnit h4) hr with ⟨g5, hr⟩ | ⟨g5, hr⟩
  · have hn : ¬ V := by rw [← hV]; exact fun h => g5 h.2.2.2.2.1
    subst hr; simp [hp, hn, eq_comm]
  rcases raise_cases (nNonNeg (.inr h5)) hr with ⟨g6, hr⟩ | ⟨g6, hr⟩
  · have hn : ¬ V := by rw [← hV]; exact fun h => g6 h.2.2.2.2.2.1
    subst hr; simp [hp, hn, eq_comm]
  rcases raise_cases (nNonNeg (.inr h6)) hr with ⟨g7, hr⟩ | ⟨g7, hr⟩
  · have hn : ¬ V := by rw [← hV]; exact fun h => g7 h.2.2.2.2.2.2.1
    subst hr; simp [hp, hn, eq_comm]
  rcases raise_cases (nNonNeg (.inr h7)) hr with ⟨g8, hr⟩ | ⟨g8, hr⟩
  · have hn : ¬ V := by rw [← hV]; exact fun h => g8 h.2.2.2.2.2.2.2
    subst hr; simp [hp, hn, eq_comm]
  have hv : V := by rw [← hV]; exact ⟨g1, g2, g3, g4, g5, g6, g7, g8⟩
  subst hr
  simp [hp, hv, path_iff h8, eq_comm]

/-- C86, GMSL: an object exactly when both paths are texts, the number of lists is a positive `int` and beta a number from 0 to 1 (or `nan`). The exception is that of the first check that fails, in the order input path, number of lists, beta,
output path. -/
theorem C86_gmsl (input maxSl beta output : Obj) :
    (∀ x, gmslInit input maxSl beta output = .ok x ↔ IsText input ∧ PosInt maxSl ∧ UnitOrNan beta ∧ IsText output ∧ x = ⟨input, maxSl, beta, output⟩) ∧
    (∀ e, gmslInit input maxSl beta output = .error e ↔
      (e = .typeError ∧ (¬ IsText input ∨ ¬ IsInt maxSl ∨ (PosInt maxSl ∧ (¬ IsNumber beta ∨ (UnitOrNan beta ∧ ¬ IsText output))))) ∨
      (e = .valueError ∧ IsText input ∧ ((IsInt maxSl ∧ ¬ PosInt maxSl) ∨ (PosInt maxSl ∧ IsNumber beta ∧ ¬ UnitOrNan beta)))) := by
  generalize hr : gmslInit input maxSl beta output = r
  unfold gmslInit at hr
  rcases raise_cases (nText _) hr with ⟨h1, hr⟩ | ⟨h1, hr⟩
  · subst hr; simp [h1, eq_comm]
  rcases raise_cases (nInt _) hr with ⟨h2, hr⟩ | ⟨h2, hr⟩
  · have n : ¬ PosInt maxSl := fun ⟨i, h, _⟩ => h2 ⟨i, h⟩
    subst hr; simp [h1, h2, n, eq_comm]
  rcases raise_cases (nPos h2) hr with ⟨h3, hr⟩ | ⟨h3, hr⟩
  · subst hr; simp [h1, h2, h3, eq_comm]
  rcases raise_cases (nNumber _) hr with ⟨h4, hr⟩ | ⟨h4, hr⟩
  · have n : ¬ UnitOrNan beta := fun h => h4 ((unit_iff _).1 h).1
    subst hr; simp [h1, h2, h3, h4, n, eq_comm]
  rcases raise_cases (nUnit h4) hr with ⟨h5, hr⟩ | ⟨h5, hr⟩
  · subst hr; simp [h1, h2, h3, h4, h5, eq_comm]
  rcases raise_cases (nText _) hr with ⟨h6, hr⟩ | ⟨h6, hr⟩
  · subst hr; simp [h1, h2, h3, h4, h5, h6, eq_comm]
  subst hr; simp [h1, h2, h3, h4, h5, h6, eq_comm]

/-- C86, PSLD: GMSL and a positive `int` as maximum size, which is checked first. -/
theorem C86_psld (input maxSl size beta output : Obj) :
    (∀ x, psldInit input maxSl size beta output = .ok x ↔ PosInt size ∧ IsText input ∧ PosInt maxSl ∧ UnitOrNan beta ∧ IsText output ∧ x = (⟨input, maxSl, beta, output⟩, size)) ∧
    (∀ e, psldInit input maxSl size beta output = .error e ↔
      (e = .typeError ∧ ¬ IsInt size) ∨ (e = .valueError ∧ IsInt size ∧ ¬ PosInt size) ∨ (PosInt size ∧ gmslInit input maxSl beta output = .error e)) := by
  have hg := C86_gmsl input maxSl beta output
  generalize hr : psldInit input maxSl size beta output = r
  unfold psldInit at hr
  rcases raise_cases (nInt _) hr with ⟨h1, hr⟩ | ⟨h1, hr⟩
  · have n : ¬ PosInt size := fun ⟨i, h, _⟩ => h1 ⟨i, h⟩
    subst hr; simp [h1, n, eq_comm]
  rcases raise_cases (nPos h1) hr with ⟨h2, hr⟩ | ⟨h2, hr⟩
  · subst hr; simp [h1, h2, eq_comm]
  cases hi : gmslInit input maxSl beta output with
  | error e =>
    rw [hi, error_bind] at hr
    subst hr
    refine ⟨?_, ?_⟩
    · intro x
      simp only [reduceCtorEq, false_iff]
      rintro ⟨-, a, b, c, d, -⟩
      have := (hg.1 ⟨input, maxSl, beta, output⟩).2 ⟨a, b, c, d, rfl⟩
      rw [hi] at this
      cases this
    · intro e'
      simp [h1, h2]
  | ok o =>
    rw [hi, ok_bind] at hr
    subst hr
    obtain ⟨a, b, c, d, rfl⟩ := (hg.1 o).1 hi
    simp [h1, h2, a, b, c, d, eq_comm]

/-- C86, DSLM: PSLD and two `float`s (not `int`s) as limits of the overlaps, whose types are checked first and whose values are not. -/
theorem C86_dslm (input maxSl size beta maxPos maxNeg output : Obj) :
    (∀ x, dslmInit input maxSl size beta maxPos maxNeg output = .ok x ↔
      IsFloat maxPos ∧ IsFloat maxNeg ∧ PosInt size ∧ IsText input ∧ PosInt maxSl ∧ UnitOrNan beta ∧ IsText output ∧ x = ((⟨input, maxSl, beta, output⟩, size), maxPos, maxNeg)) ∧
    (∀ e, dslmInit input maxSl size beta maxPos maxNeg output = .error e ↔
      (e = .typeError ∧ ¬ (IsFloat maxPos ∧ IsFloat maxNeg)) ∨ (IsFloat maxPos ∧ IsFloat maxNeg ∧ psldInit input maxSl size beta output = .error e)) := by
  have hg := C86_psld input maxSl size beta output
  generalize hr : dslmInit input maxSl size beta maxPos maxNeg output = r
  unfold dslmInit at hr
  rcases raise_cases (nFloat _) hr with ⟨h1, hr⟩ | ⟨h1, hr⟩
  · subst hr; simp [h1, eq_comm]
  rcases raise_cases (nFloat _) hr with ⟨h2, hr⟩ | ⟨h2, hr⟩
  · subst hr; simp [h1, h2, eq_comm]
  cases hi : psldInit input maxSl size beta output with
  | error e =>
    rw [hi, error_bind] at hr
    subst hr
    refine ⟨?_, ?_⟩
    · intro x
      simp only [reduceCtorEq, false_iff]
      rintro ⟨-, -, s, a, b, c, d, -⟩
      have := (hg.1 (⟨input, maxSl, beta, output⟩, size)).2 ⟨s, a, b, c, d, rfl⟩
      rw [hi] at this
      cases this
    · intro e'
      simp [h1, h2]
  | ok o =>
    rw [hi, ok_bind] at hr
    subst hr
    obtain ⟨s, a, b, c, d, rfl⟩ := (hg.1 o).1 hi
    simp [h1, h2, s, a, b, c, d, eq_comm]

/-- a measure of the library as an argument -/
def ofQM (q : QM) : Obj := .measure 0 q.name (q.estimateOf.map (·.1))

/-- C86: among the measures of the library the pairs that the constructors accept are the four pairs of C67 (for three of which the estimate is proved to be one). -/
theorem C86_library (q o : QM) : Declared (ofQM q) (ofQM o) ↔ UsablePair q o := by
  rw [← check_iff, checkEstimate_eq]
  have h : Declared (ofQM q) (ofQM o) ↔ q.name ∈ o.estimateOf.map (·.1) := by
    constructor
    · rintro ⟨i, n, es, i', n', es', h1, h2, h3⟩
      unfold ofQM at h1 h2
      cases h1; cases h2; exact h3
    · intro h; exact ⟨_, _, _, _, _, _, rfl, rfl, h⟩
  rw [h]
  generalize q.name = k
  generalize o.estimateOf = l
  induction l with
  | nil => simp
  | cons e l ih =>
    obtain ⟨a, b⟩ := e
    by_cases hk : k = a
    · subst hk; simp
    · have hb : (k == a) = false := by simpa using hk
      simp only [List.map_cons, List.mem_cons, hk, false_or, List.lookup_cons, hb]
      exact ih

/-- C86: the range checks let `nan` through: GMSL can be created with beta = nan. -/
theorem C86_nan : gmslInit (.str c!"in") (.int 1) (.float .nan) (.str c!"out") = .ok ⟨.str c!"in", .int 1, .float .nan, .str c!"out"⟩ := by decide +kernel

/-- accepted and refused calls -/
example : sdmapInit (ofQM (.rat .wracc)) (.float (.fin (1/10))) (.int 1) (.int 0) .none (.dict [(c!"g", 0), (c!"tp", 1)]) (.bool true) (.str c!"f") =
      .ok ⟨ofQM (.rat .wracc), .float (.fin (1/10)), .int 1, .int 0, .none, [(c!"g", 0)], .str c!"f"⟩ ∧
    sdmapInit (ofQM (.rat .wracc)) (.bool true) (.int 1) (.int 0) .none (.dict []) (.bool true) .none = .error .typeError ∧
    sdmapInit (ofQM (.rat .wracc)) (.int 0) (.int 1) (.int 0) .none (.dict []) (.bool true) .none = .error .valueError ∧
    sdmapInit (ofQM (.rat .wracc)) (.int 0) (.int 1) (.int 0) (.int 3) (.dict []) (.bool false) .none = .error .inconsistentParameters ∧
    bsdInit (.int 0) (ofQM (.rat .wracc)) (ofQM (.rat .wraccOE1)) (.int 5) (.int 3) (.dict []) (.dict []) (.bool false) .none =
      .ok ⟨.int 0, ofQM (.rat .wracc), ofQM (.rat .wraccOE1), .int 5, .int 3, [], [], .none⟩ ∧
    bsdInit (.int 0) (ofQM (.rat .wracc)) .none (.int 5) (.int 3) (.dict []) (.dict []) (.bool false) .none = .error .attributeError ∧
    bsdInit (.int 0) (ofQM (.rat .wracc)) (ofQM (.rat .wraccOE1)) (.int 5) (.int 3) (.dict []) (.copyable 0) (.bool false) .none = .error .typeError ∧
    (sdmapStarInit (ofQM (.rat .wracc)) (ofQM (.rat .wraccOE1)) (.int 0) .none .none (.int 2) (.dict []) (.dict []) (.bool false) .none (.int 5)).isOk = true ∧
    (vlsdInit (ofQM (.rat .wracc)) (.int 0) (ofQM (.rat .wraccOE1)) (.int 0) (.dict []) (.dict []) (.str c!"no-order") (.str c!"no-order") (.str c!"sets") (.bool false) .none).isOk = true ∧
    (idsdInit (.int 5) (.int (-1)) (.int (-1)) (.float (.fin (1/10))) (.int 1) (.float (.fin (1/20))) (.int 0) (.int 5) (.bool false) .none).isOk = true ∧
    (qfinderInit (.int 5) (.int (-1)) (.int (-1)) (.float (.fin (1/10))) (.int 1) (.float (.fin (1/20))) (.int 0) (.int 5) (.float (.fin (1/5))) (.int 0) (.int 7)).isOk = true ∧
    (sdigaInit (.int 5) (.int 10) (.float (.fin (1/2))) (.float (.fin (1/2))) (.float (.fin 0)) (.float (.fin 0)) (.float (.fin 0)) (.bool false) .none).isOk = true ∧
    sdigaInit (.int 5) (.int 10) (.float (.fin 1)) (.float (.fin (1/2))) (.float (.fin 0)) (.float (.fin 0)) (.float (.fin 0)) (.bool false) .none = .error .valueError ∧
    (dslmInit (.str c!"in") (.int 1) (.int 1) (.int 1) (.float (.fin (-1))) (.float .nan) (.str c!"out")).isOk = true ∧
    gmslInit (.str c!"in") (.int 1) (.float (.fin 2)) .none = .error .valueError := by decide +kernel

end Ctors
end Verif

import Verif.Lemmas.VLSD
/-! The two implementations of vertical lists, inside VLSD: every function of the model gives related results on related arguments. -/
namespace Verif
namespace Spec

/-- the two results are the same exception, or values related by `R` -/
def SameResult {α β : Type} (R : α → β → Prop) : Except PyErr α → Except PyErr β → Prop
  | .error e, .error e' => e = e'
  | .ok a, .ok b => R a b
  | _, _ => False

/-- the two lines show the same, and their sequences stand for the same rows -/
structure SameLine (x : VLine (List Nat)) (y : VLine Bits) : Prop where
  subgroup : x.subgroup = y.subgroup
  quality : x.quality = y.quality
  estimate : x.estimate = y.estimate
  tp : x.tp = y.tp
  fp : x.fp = y.fp
  TP : x.TP = y.TP
  FP : x.FP = y.FP
  tpSeq : ∀ i, i ∈ x.tpSeq ↔ y.tpSeq.get i = true
  fpSeq : ∀ i, i ∈ x.fpSeq ↔ y.fpSeq.get i = true

/-- the two objects have the same counters, the same lines in the same order, and handled the same vertical lists in the same order -/
structure SameVLState (s : VLState (List Nat)) (b : VLState Bits) : Prop where
  selected : s.selected = b.selected
  unselected : s.unselected = b.unselected
  file : List.Forall₂ SameLine s.file b.file
  calls : List.Forall₂ SameList s.calls b.calls
end Spec
open Spec

/-- related lists, with sets without repetitions -/
def SameN {σ : Type} (x : VList σ (List Nat)) (y : VList σ Bits) : Prop := SameList x y ∧ x.tpSeq.Nodup ∧ x.fpSeq.Nodup

theorem SameResult.imp {α β : Type} {R S : α → β → Prop} (h : ∀ a b, R a b → S a b) {x : Except PyErr α} {y : Except PyErr β}
    (hx : SameResult R x y) : SameResult S x y := by
  rcases x with e | a <;> rcases y with e' | b <;> simp only [SameResult] at hx ⊢
  · exact hx
  · exact h _ _ hx

/-- related optional values -/
def OptRel {α β : Type} (R : α → β → Prop) : Option α → Option β → Prop
  | none, none => True
  | some a, some b => R a b
  | _, _ => False

theorem join_same (quality : Params → Except PyErr Rat) (d : Params) (z : Bool) {x u : VList Selector (List Nat)} {y v : VList Selector Bits}
    (h1 : SameN x y) (h2 : SameN u v) :
    SameResult (OptRel SameN) (VListSet.join quality d z x u) (VListBits.join quality d z y v) := by
  obtain ⟨ha, a1, a2⟩ := h1
  obtain ⟨hb, -, -⟩ := h2
  have ht : (y.tpSeq.and v.tpSeq).ones = (VListSet.inter x.tpSeq u.tpSeq).length :=
    Bits.ones_eq_length _ _ (List.Nodup.filter _ a1)
      (fun i => by rw [inter_mem, Bits.get_and, Bool.and_eq_true, ha.tpSeq, hb.tpSeq])
  have hf : (y.fpSeq.and v.fpSeq).ones = (VListSet.inter x.fpSeq u.fpSeq).length :=
    Bits.ones_eq_length _ _ (List.Nodup.filter _ a2)
      (fun i => by rw [inter_mem, Bits.get_and, Bool.and_eq_true, ha.fpSeq, hb.fpSeq])
  unfold VListSet.join VListBits.join
  dsimp only
  rw [ht, hf, ← hb.sels, ← ha.rows, ← hb.rows, ← ha.sels]
  by_cases hrows : x.rows = u.rows
  swap
  · rw [if_pos hrows, if_pos hrows]; rfl
  rw [if_neg (not_not.2 hrows), if_neg (not_not.2 hrows)]
  by_cases hcond : (!z || decide ((VListSet.inter x.tpSeq u.tpSeq).length + (VListSet.inter x.fpSeq u.fpSeq).length > 0)) = true
  · rw [if_pos hcond, if_pos hcond]
    cases hlast : u.sels.getLast? with
    | none => rfl
    | some s =>
    cases hq : quality (vlParams d (VListSet.inter x.tpSeq u.tpSeq).length (VListSet.inter x.fpSeq u.fpSeq).length) with
    | error e => rfl
    | ok q =>
    refine ⟨⟨rfl, rfl, rfl, rfl, rfl, ?_, ?_, fun i => ?_, fun i => ?_⟩, List.Nodup.filter _ a1, List.Nodup.filter _ a2⟩
    · simp only [Bits.len_and, ha.tpLen, hb.tpLen, ← ha.rows, ← hb.rows, hrows, min_self]
    · simp only [Bits.len_and, ha.fpLen, hb.fpLen, ← ha.rows, ← hb.rows, hrows, min_self]
    · rw [inter_mem, Bits.get_and, Bool.and_eq_true, ha.tpSeq, hb.tpSeq]
    · rw [inter_mem, Bits.get_and, Bool.and_eq_true, ha.fpSeq, hb.fpSeq]
  · rw [if_neg hcond, if_neg hcond]
    trivial

theorem new_same (sels : List Selector) (t f : List Nat) (n : Nat) (q : Rat) (h3 : ∀ i ∈ t, i < n) (h4 : ∀ i ∈ f, i < n) :
    SameResult SameN (VListSet.new sels t f n q) (VListBits.new sels t f n q) := by
  obtain ⟨c, c1, c2, c3⟩ := setBits_spec (List.replicate n false) t (by simpa using h3)
  obtain ⟨c', c1', c2', c3'⟩ := setBits_spec (List.replicate n false) f (by simpa using h4)
  simp only [VListSet.new, VListBits.new, c1, c1', SameResult]
  refine ⟨⟨rfl, rfl, rfl, rfl, rfl, by simpa using c2, by simpa using c2', fun i => ?_, fun i => ?_⟩, List.nodup_dedup _, List.nodup_dedup _⟩
  · rw [c3, get_replicate_false]; simp [VListSet.toSet]
  · rw [c3', get_replicate_false]; simp [VListSet.toSet]

variable {cfg : VLSDConfig} {target : Str × Str} {TP FP : Nat}

theorem handle_same {st : VLState (List Nat)} {st' : VLState Bits} {x : VList Selector (List Nat)} {y : VList Selector Bits}
    (hs : SameVLState st st') (h : SameN x y) : SameResult SameVLState (cfg.handle target TP FP st x) (cfg.handle target TP FP st' y) := by
  have hh := h.1
  unfold VLSDConfig.handle
  rw [hh.tp, hh.fp]
  cases cfg.measure (paramsFor y.tp y.fp TP FP cfg.extra) with
  | error e => rfl
  | ok q =>
    simp only
    by_cases hq : q ≥ cfg.minQuality
    · rw [if_pos hq, if_pos hq]
      refine ⟨by simp only [hs.selected], hs.unselected, ?_, ?_⟩
      · exact List.rel_append hs.file (.cons ⟨by simp only [hh.sels], rfl, hh.quality, rfl, rfl, rfl, rfl, hh.tpSeq, hh.fpSeq⟩ .nil)
      · exact List.rel_append hs.calls (.cons hh .nil)
    · rw [if_neg hq, if_neg hq]
      exact ⟨hs.selected, by simp only [hs.unselected], hs.file, List.rel_append hs.calls (.cons hh .nil)⟩

theorem foldlM_same {l : List (VList Selector (List Nat))} {l' : List (VList Selector Bits)} (hl : List.Forall₂ SameN l l')
    {st : VLState (List Nat)} {st' : VLState Bits} (hs : SameVLState st st') :
    SameResult SameVLState (l.foldlM (cfg.handle target TP FP) st) (l'.foldlM (cfg.handle target TP FP) st') := by
  induction hl generalizing st st' with
  | nil => exact hs
  | cons h _ ih =>
    rw [List.foldlM_cons, List.foldlM_cons]
    have := handle_same (cfg := cfg) (target := target) (TP := TP) (FP := FP) hs h
    generalize cfg.handle target TP FP st _ = r at this ⊢
    generalize cfg.handle target TP FP st' _ = r' at this ⊢
    rcases r with e | a <;> rcases r' with e' | b <;> simp only [SameResult] at this
    · exact this
    · exact ih this

theorem goodJoin_same {x u : VList Selector (List Nat)} {y v : VList Selector Bits} (h1 : SameN x y) (h2 : SameN u v) :
    SameResult (OptRel SameN) (cfg.goodJoin .sets TP FP x u) (cfg.goodJoin .bitsets TP FP y v) := by
  have := join_same cfg.estimate (cfg.joinParams TP FP) true h1 h2
  unfold VLSDConfig.goodJoin
  simp only [VLImpl.sets, VLImpl.bitsets]
  generalize VListSet.join _ _ _ x u = r at this ⊢
  generalize VListBits.join _ _ _ y v = r' at this ⊢
  rcases r with e | _ | a <;> rcases r' with e' | _ | b <;> simp only [SameResult, OptRel] at this ⊢
  · exact this
  · rw [this.1.quality]
    by_cases hq : b.quality ≥ cfg.minEstimate
    · rw [if_pos hq, if_pos hq]; exact this
    · rw [if_neg hq, if_neg hq]; trivial

theorem sortedInsert_same {le : VList Selector (List Nat) → VList Selector (List Nat) → Bool} {le' : VList Selector Bits → VList Selector Bits → Bool}
    (hle : ∀ a b a' b', SameN a a' → SameN b b' → le a b = le' a' b') {a : VList Selector (List Nat)} {a' : VList Selector Bits} (ha : SameN a a')
    {l : List (VList Selector (List Nat))} {l' : List (VList Selector Bits)} (hl : List.Forall₂ SameN l l') :
    List.Forall₂ SameN (sortedInsert le a l) (sortedInsert le' a' l') := by
  induction hl with
  | nil => exact .cons ha .nil
  | cons h ht ih =>
    unfold sortedInsert
    rw [hle _ _ _ _ ha h]
    split
    · exact .cons ha (.cons h ht)
    · exact .cons h ih

theorem stableSort_same {le : VList Selector (List Nat) → VList Selector (List Nat) → Bool} {le' : VList Selector Bits → VList Selector Bits → Bool}
    (hle : ∀ a b a' b', SameN a a' → SameN b b' → le a b = le' a' b')
    {l : List (VList Selector (List Nat))} {l' : List (VList Selector Bits)} (hl : List.Forall₂ SameN l l') :
    List.Forall₂ SameN (stableSort le l) (stableSort le' l') := by
  induction hl with
  | nil => exact .nil
  | cons h _ ih =>
    simp only [stableSort, List.foldr_cons] at ih ⊢
    exact sortedInsert_same hle h ih

theorem sort_same (c : SortCriterion) {l : List (VList Selector (List Nat))} {l' : List (VList Selector Bits)} (hl : List.Forall₂ SameN l l') :
    List.Forall₂ SameN (c.sort l) (c.sort l') := by
  cases c
  · exact stableSort_same (fun a b a' b' h h' => by rw [h.1.quality, h'.1.quality]) hl
  · exact stableSort_same (fun a b a' b' h h' => by rw [h.1.quality, h'.1.quality]) hl
  · exact hl

/-- rows of the matrix, related -/
def SameRow (r : List (Selector × VList Selector (List Nat))) (r' : List (Selector × VList Selector Bits)) : Prop :=
  List.Forall₂ (fun a b => a.1 = b.1 ∧ SameN a.2 b.2) r r'

def SameMatrix (M : VMatrix (List Nat)) (M' : VMatrix Bits) : Prop := List.Forall₂ (fun a b => a.1 = b.1 ∧ SameRow a.2 b.2) M M'

theorem lookup_same {α β : Type} {R : α → β → Prop} {l : List (Selector × α)} {l' : List (Selector × β)}
    (h : List.Forall₂ (fun a b => a.1 = b.1 ∧ R a.2 b.2) l l') (k : Selector) : OptRel R (l.lookup k) (l'.lookup k) := by
  induction h with
  | nil => trivial
  | @cons a b _ _ hab _ ih =>
    obtain ⟨a1, a2⟩ := a
    obtain ⟨b1, b2⟩ := b
    obtain ⟨h1, h2⟩ := hab
    simp only at h1 h2
    subst h1
    rw [List.lookup_cons, List.lookup_cons]
    cases k == a1
    · exact ih
    · exact h2

theorem query_same {M : VMatrix (List Nat)} {M' : VMatrix Bits} (h : SameMatrix M M') (a b : Selector) : OptRel SameN (M.query a b) (M'.query a b) := by
  have key : ∀ a b, OptRel SameN ((M.lookup a).bind (fun r => r.lookup b)) ((M'.lookup a).bind (fun r => r.lookup b)) := by
    intro a b
    have := lookup_same h a
    generalize M.lookup a = o at this ⊢
    generalize M'.lookup a = o' at this ⊢
    rcases o with _ | r <;> rcases o' with _ | r' <;> simp only [OptRel] at this
    · trivial
    · exact lookup_same this b
  unfold VMatrix.query
  have h1 := key a b
  have h2 := key b a
  generalize (M.lookup a).bind (fun r => r.lookup b) = o at h1 ⊢
  generalize (M'.lookup a).bind (fun r => r.lookup b) = o' at h1 ⊢
  rcases o with _ | r <;> rcases o' with _ | r' <;> simp only [OptRel] at h1
  · exact h2
  · exact h1

theorem joinRight_same {M : VMatrix (List Nat)} {M' : VMatrix Bits} (hM : SameMatrix M M') {x : VList Selector (List Nat)} {y : VList Selector Bits}
    (hx : SameN x y) {l : List (VList Selector (List Nat))} {l' : List (VList Selector Bits)} (hl : List.Forall₂ SameN l l')
    {st : VLState (List Nat)} {st' : VLState Bits} (hs : SameVLState st st') :
    SameResult (fun p p' => SameVLState p.1 p'.1 ∧ List.Forall₂ SameN p.2 p'.2) (cfg.joinRight .sets target TP FP M x l st)
      (cfg.joinRight .bitsets target TP FP M' y l' st') := by
  induction hl generalizing st st' with
  | nil => exact ⟨hs, .nil⟩
  | @cons u v _ _ h _ ih =>
    unfold VLSDConfig.joinRight
    rw [← hx.1.sels, ← h.1.sels]
    rcases x.sels.getLast? with _ | a
    · rfl
    rcases u.sels.getLast? with _ | b
    · rfl
    simp only
    have hq := query_same hM a b
    generalize M.query a b = o at hq ⊢
    generalize M'.query a b = o' at hq ⊢
    rcases o with _ | m <;> rcases o' with _ | m' <;> simp only [OptRel] at hq
    · exact ih hs
    simp only
    rw [hq.1.quality]
    by_cases hm : m'.quality ≥ cfg.minEstimate
    swap
    · rw [if_neg hm, if_neg hm]; exact ih hs
    rw [if_pos hm, if_pos hm]
    have hg := goodJoin_same (cfg := cfg) (TP := TP) (FP := FP) hx h
    generalize cfg.goodJoin .sets TP FP x u = r at hg ⊢
    generalize cfg.goodJoin .bitsets TP FP y v = r' at hg ⊢
    rcases r with e | _ | w <;> rcases r' with e' | _ | w' <;> simp only [SameResult, OptRel] at hg
    · exact hg
    · exact ih hs
    simp only
    have hh := handle_same (cfg := cfg) (target := target) (TP := TP) (FP := FP) hs hg
    generalize cfg.handle target TP FP st w = r at hh ⊢
    generalize cfg.handle target TP FP st' w' = r' at hh ⊢
    rcases r with e | st1 <;> rcases r' with e' | st1' <;> simp only [SameResult] at hh
    · exact hh
    simp only
    have hi := ih hh
    generalize cfg.joinRight .sets target TP FP M x _ st1 = r at hi ⊢
    generalize cfg.joinRight .bitsets target TP FP M' y _ st1' = r' at hi ⊢
    rcases r with e | ⟨p1, p2⟩ <;> rcases r' with e' | ⟨p1', p2'⟩ <;> simp only [SameResult] at hi
    · exact hi
    · exact ⟨hi.1, .cons hg hi.2⟩

theorem search_same {M : VMatrix (List Nat)} {M' : VMatrix Bits} (hM : SameMatrix M M') (n : Nat) :
    ∀ (l : List (VList Selector (List Nat))) (l' : List (VList Selector Bits)), l.length ≤ n → List.Forall₂ SameN l l' →
    ∀ (st : VLState (List Nat)) (st' : VLState Bits), SameVLState st st' →
    SameResult SameVLState (cfg.search .sets target TP FP M l st) (cfg.search .bitsets target TP FP M' l' st') := by
  induction n with
  | zero =>
    intro l l' hn hl st st' hs
    cases hl with
    | nil => simp only [VLSDConfig.search]; exact hs
    | cons _ _ => simp at hn
  | succ n ihn =>
    intro l l' hn hl st st' hs
    cases hl with
    | nil => simp only [VLSDConfig.search]; exact hs
    | @cons x y rest rest' hx hr =>
      have hj := joinRight_same (cfg := cfg) (target := target) (TP := TP) (FP := FP) hM hx hr hs
      rw [VLSDConfig.search, VLSDConfig.search]
      cases he : VLSDConfig.joinRight .sets cfg target TP FP M x rest st with
      | error e =>
        cases he' : VLSDConfig.joinRight .bitsets cfg target TP FP M' y rest' st' with
        | error e' => rw [he, he'] at hj; exact hj
        | ok r' => rw [he, he'] at hj; exact hj.elim
      | ok r =>
        obtain ⟨st1, V⟩ := r
        cases he' : VLSDConfig.joinRight .bitsets cfg target TP FP M' y rest' st' with
        | error e' => rw [he, he'] at hj; exact hj.elim
        | ok r' =>
          obtain ⟨st1', V'⟩ := r'
          rw [he, he'] at hj
          obtain ⟨hs1, hV⟩ := hj
          simp only at hs1 hV
          have hlen : V.length ≤ n := by
            have := VLSDConfig.joinRight_length he
            simp only [List.length_cons] at hn
            omega
          have hsub : SameResult SameVLState (if V = [] then Except.ok st1 else VLSDConfig.search .sets cfg target TP FP M (cfg.sortOther.sort V) st1)
              (if V' = [] then Except.ok st1' else VLSDConfig.search .bitsets cfg target TP FP M' (cfg.sortOther.sort V') st1') := by
            cases hV with
            | nil => exact hs1
            | cons a b =>
              rw [if_neg (by simp), if_neg (by simp)]
              exact ihn _ _ (by rw [VLSDConfig.sort_length]; exact hlen) (sort_same _ (.cons a b)) _ _ hs1
          simp only
          generalize (if V = [] then Except.ok st1 else VLSDConfig.search .sets cfg target TP FP M (cfg.sortOther.sort V) st1) = r at hsub ⊢
          generalize (if V' = [] then Except.ok st1' else VLSDConfig.search .bitsets cfg target TP FP M' (cfg.sortOther.sort V') st1') = r' at hsub ⊢
          rcases r with e | st2 <;> rcases r' with e' | st2' <;> simp only [SameResult] at hsub
          · exact hsub
          · simp only [List.length_cons] at hn
            exact ihn _ _ (by omega) hr _ _ hsub

theorem collect_same {γ α β : Type} {R : α → β → Prop} {f : γ → Except PyErr (Option α)} {g : γ → Except PyErr (Option β)} (l : List γ)
    (h : ∀ a ∈ l, SameResult (OptRel R) (f a) (g a)) : SameResult (List.Forall₂ R) (VLSDConfig.collect f l) (VLSDConfig.collect g l) := by
  induction l with
  | nil => exact .nil
  | cons a l ih =>
    have ha := h a (by simp)
    have hi := ih (fun b hb => h b (by simp [hb]))
    unfold VLSDConfig.collect
    generalize f a = r at ha ⊢
    generalize g a = r' at ha ⊢
    generalize VLSDConfig.collect f l = rs at hi ⊢
    generalize VLSDConfig.collect g l = rs' at hi ⊢
    rcases r with e | o <;> rcases r' with e' | o' <;> simp only [SameResult] at ha
    · exact ha
    simp only
    rcases rs with e | o1 <;> rcases rs' with e' | o1' <;> simp only [SameResult] at hi
    · exact hi
    simp only [SameResult]
    rcases o with _ | o <;> rcases o' with _ | o' <;> simp only [OptRel] at ha
    · exact hi
    · exact .cons ha hi

theorem collect_same2 {γ γ' α β : Type} {S : γ → γ' → Prop} {R : α → β → Prop} {f : γ → Except PyErr (Option α)} {g : γ' → Except PyErr (Option β)}
    {l : List γ} {l' : List γ'} (hl : List.Forall₂ S l l')
    (h : ∀ a b, S a b → SameResult (OptRel R) (f a) (g b)) : SameResult (List.Forall₂ R) (VLSDConfig.collect f l) (VLSDConfig.collect g l') := by
  induction hl with
  | nil => exact .nil
  | @cons a b l l' hab _ hi =>
    have ha := h a b hab
    unfold VLSDConfig.collect
    generalize f a = r at ha ⊢
    generalize g b = r' at ha ⊢
    generalize VLSDConfig.collect f l = rs at hi ⊢
    generalize VLSDConfig.collect g l' = rs' at hi ⊢
    rcases r with e | o <;> rcases r' with e' | o' <;> simp only [SameResult] at ha
    · exact ha
    simp only
    rcases rs with e | o1 <;> rcases rs' with e' | o1' <;> simp only [SameResult] at hi
    · exact hi
    simp only [SameResult]
    rcases o with _ | o <;> rcases o' with _ | o' <;> simp only [OptRel] at ha
    · exact hi
    · exact .cons ha hi

theorem pair_same {x u : VList Selector (List Nat)} {y v : VList Selector Bits} (h1 : SameN x y) (h2 : SameN u v) :
    SameResult (OptRel (fun a b => a.1 = b.1 ∧ SameN a.2 b.2)) (cfg.pair .sets TP FP x u) (cfg.pair .bitsets TP FP y v) := by
  have hg := goodJoin_same (cfg := cfg) (TP := TP) (FP := FP) h1 h2
  unfold VLSDConfig.pair
  generalize cfg.goodJoin .sets TP FP x u = r at hg ⊢
  generalize cfg.goodJoin .bitsets TP FP y v = r' at hg ⊢
  rcases r with e | _ | w <;> rcases r' with e' | _ | w' <;> simp only [SameResult, OptRel] at hg
  · exact hg
  · trivial
  simp only
  rw [← h2.1.sels]
  rcases u.sels.getLast? with _ | b
  · rfl
  · exact ⟨rfl, hg⟩

theorem matrix_same {l : List (VList Selector (List Nat))} {l' : List (VList Selector Bits)} (hl : List.Forall₂ SameN l l') :
    SameResult SameMatrix (cfg.matrix .sets TP FP l) (cfg.matrix .bitsets TP FP l') := by
  induction hl with
  | nil => exact List.Forall₂.nil
  | @cons x y l l' hx hl ih =>
    unfold VLSDConfig.matrix
    have hc := collect_same2 (f := cfg.pair .sets TP FP x) (g := cfg.pair .bitsets TP FP y) hl (fun a b hab => pair_same hx hab)
    generalize VLSDConfig.collect (cfg.pair .sets TP FP x) l = r at hc ⊢
    generalize VLSDConfig.collect (cfg.pair .bitsets TP FP y) l' = r' at hc ⊢
    generalize cfg.matrix .sets TP FP l = M at ih ⊢
    generalize cfg.matrix .bitsets TP FP l' = M' at ih ⊢
    rcases r with e | row <;> rcases r' with e' | row' <;> simp only [SameResult] at hc
    · exact hc
    rcases M with e | M <;> rcases M' with e' | M' <;> simp only [SameResult] at ih
    · exact ih
    simp only
    cases hc with
    | nil => exact ih
    | cons a b =>
      rw [if_neg (by simp), if_neg (by simp), ← hx.1.sels]
      rcases x.sels.getLast? with _ | s
      · rfl
      · exact List.Forall₂.cons ⟨rfl, .cons a b⟩ ih

theorem map_same {row : List (Selector × VList Selector (List Nat))} {row' : List (Selector × VList Selector Bits)} (h : SameRow row row') :
    List.Forall₂ SameN (row.map (·.2)) (row'.map (·.2)) := by
  induction h with
  | nil => exact .nil
  | cons a _ ih => exact .cons a.2 ih

theorem level2_same {M : VMatrix (List Nat)} {M' : VMatrix Bits} (hM : SameMatrix M M') {l : List (VList Selector (List Nat))} {l' : List (VList Selector Bits)}
    (hl : List.Forall₂ SameN l l') {st : VLState (List Nat)} {st' : VLState Bits} (hs : SameVLState st st') :
    SameResult SameVLState (cfg.level2 .sets target TP FP M l st) (cfg.level2 .bitsets target TP FP M' l' st') := by
  induction hl generalizing st st' with
  | nil => exact hs
  | @cons x y l l' hx hl ih =>
    unfold VLSDConfig.level2
    rw [← hx.1.sels]
    rcases x.sels.getLast? with _ | a
    · rfl
    simp only
    have hr := lookup_same hM a
    generalize M.lookup a = o at hr ⊢
    generalize M'.lookup a = o' at hr ⊢
    rcases o with _ | row <;> rcases o' with _ | row' <;> simp only [OptRel] at hr
    · exact ih hs
    simp only
    have hP := sort_same cfg.sortOther (map_same hr)
    have hf := foldlM_same (cfg := cfg) (target := target) (TP := TP) (FP := FP) hP hs
    generalize (cfg.sortOther.sort (row.map (·.2))).foldlM (cfg.handle target TP FP) st = r at hf ⊢
    generalize (cfg.sortOther.sort (row'.map (·.2))).foldlM (cfg.handle target TP FP) st' = r' at hf ⊢
    rcases r with e | st1 <;> rcases r' with e' | st1' <;> simp only [SameResult] at hf
    · exact hf
    simp only
    have hse := search_same (cfg := cfg) (target := target) (TP := TP) (FP := FP) hM _ _ _ le_rfl hP _ _ hf
    generalize VLSDConfig.search .sets cfg target TP FP M (cfg.sortOther.sort (row.map (·.2))) st1 = r at hse ⊢
    generalize VLSDConfig.search .bitsets cfg target TP FP M' (cfg.sortOther.sort (row'.map (·.2))) st1' = r' at hse ⊢
    rcases r with e | st2 <;> rcases r' with e' | st2' <;> simp only [SameResult] at hse
    · exact hse
    · exact ih hse

theorem single_same {n : Nat} (hn : TP + FP = n) (mask : List Bool) (c : Str × List Val) (v : Val) :
    SameResult (OptRel SameN) (cfg.single .sets n TP FP mask c v) (cfg.single .bitsets n TP FP mask c v) := by
  unfold VLSDConfig.single
  dsimp only
  generalize cfg.estimate _ = r
  rcases r with e | o
  · rfl
  simp only
  by_cases h : o ≥ cfg.minEstimate
  swap
  · rw [if_neg h, if_neg h]; trivial
  rw [if_pos h, if_pos h]
  have hreg : ∀ b, ∀ i ∈ VLSDConfig.registers n c.2 mask v b, i < TP + FP := by
    intro b i hi
    unfold VLSDConfig.registers at hi
    rw [hn]
    exact List.mem_range.1 (List.mem_filter.1 hi).1
  have := new_same [⟨c.1, .equal, v⟩] (VLSDConfig.registers n c.2 mask v true) (VLSDConfig.registers n c.2 mask v false) (TP + FP) o
    (hreg _) (hreg _)
  simp only [VLImpl.sets, VLImpl.bitsets]
  generalize VListSet.new _ _ _ _ _ = r at this ⊢
  generalize VListBits.new _ _ _ _ _ = r' at this ⊢
  rcases r with e | a <;> rcases r' with e' | b <;> simp only [SameResult] at this ⊢
  · exact this
  · exact this

theorem s1_same {df : Frame} (hn : TP + FP = df.nrows) (tname : Str) (mask : List Bool) :
    SameResult (List.Forall₂ SameN) (cfg.s1 .sets df tname mask TP FP) (cfg.s1 .bitsets df tname mask TP FP) := by
  unfold VLSDConfig.s1
  have := collect_same (R := SameN) (f := fun cv : (Str × List Val) × Val => cfg.single .sets df.nrows TP FP mask cv.1 cv.2)
    (g := fun cv => cfg.single .bitsets df.nrows TP FP mask cv.1 cv.2) ((otherCols df tname).flatMap (fun c => (groupKeys c.2).map (fun v => (c, v))))
    (fun a _ => single_same hn mask a.1 a.2)
  generalize VLSDConfig.collect _ _ = r at this ⊢
  generalize VLSDConfig.collect _ _ = r' at this ⊢
  rcases r with e | a <;> rcases r' with e' | b <;> simp only [SameResult] at this
  · exact this
  · exact sort_same _ this

theorem vlsd_fit_same {df : Frame} (hw : WF df) {st : VLState (List Nat)} {st' : VLState Bits} (hs : SameVLState st st') :
    SameResult SameVLState (cfg.fit .sets st df target) (cfg.fit .bitsets st' df target) := by
  unfold VLSDConfig.fit
  by_cases hd : (!df.nominal) = true
  · rw [if_pos hd, if_pos hd]; rfl
  rw [if_neg hd, if_neg hd]
  cases hm : targetMask df target with
  | error e => rfl
  | ok mask =>
    simp only
    have hlen : mask.length = df.nrows := by
      unfold targetMask Frame.col at hm
      split at hm
      · rename_i col hcol
        split at hcol
        · rename_i c hc
          cases hcol
          cases hm
          rw [List.length_map]
          exact hw _ (mem_of_lookup hc)
        · cases hcol
      · cases hm
    have hTP : mask.count true ≤ df.nrows := hlen ▸ List.count_le_length
    have hn : mask.count true + (df.nrows - mask.count true) = df.nrows := by omega
    have h1 := s1_same (cfg := cfg) hn target.1 mask
    generalize cfg.s1 .sets df target.1 mask _ _ = r at h1 ⊢
    generalize cfg.s1 .bitsets df target.1 mask _ _ = r' at h1 ⊢
    rcases r with e | S1 <;> rcases r' with e' | S1' <;> simp only [SameResult] at h1
    · exact h1
    simp only
    have hf := foldlM_same (cfg := cfg) (target := target) (TP := mask.count true) (FP := df.nrows - mask.count true) h1
      (st := { st with file := [] }) (st' := { st' with file := [] }) ⟨hs.selected, hs.unselected, .nil, hs.calls⟩
    generalize S1.foldlM (cfg.handle target (mask.count true) (df.nrows - mask.count true)) _ = r at hf ⊢
    generalize S1'.foldlM (cfg.handle target (mask.count true) (df.nrows - mask.count true)) _ = r' at hf ⊢
    rcases r with e | st1 <;> rcases r' with e' | st1' <;> simp only [SameResult] at hf
    · exact hf
    simp only
    have hM := matrix_same (cfg := cfg) (TP := mask.count true) (FP := df.nrows - mask.count true) h1
    generalize cfg.matrix .sets _ _ S1 = r at hM ⊢
    generalize cfg.matrix .bitsets _ _ S1' = r' at hM ⊢
    rcases r with e | M <;> rcases r' with e' | M' <;> simp only [SameResult] at hM
    · exact hM
    · exact level2_same hM h1 hf

end Verif

import Verif.Spec.ListMiner
import Verif.Props.SubgroupList
import Verif.Props.Pattern
/-! The greedy search of the subgroup-list algorithms, for any evaluation that implements a rule. -/
namespace Verif
open Spec
variable {G C : Type}

/-- the model's invariants speak of triples -/
def Cand.triple (c : Cand) : Subgroup × Bits × Bits := (c.sub, c.pos, c.neg)

/-- the evaluation of `M` implements the rule `R` on lists over the classes `P`, `N`: whenever it does not raise, it
leaves the list as it was, returns the gain of the rule, and (for positive gains) tells whether the candidate is admissible -/
structure Implements (M : Miner G C) (R : Rule G) (P N : Bits) : Prop where
  zero : M.zero = R.zero
  gt : ∀ a b, M.gt a b = true ↔ R.gt a b
  irrefl : ∀ a, ¬ R.gt a a
  trans : ∀ a b c, R.gt a b → R.gt b c → R.gt a c
  size : M.maxSize = R.maxSize
  deletes : ∀ s t, M.deletes s t = true ↔ R.related s t
  eval : ∀ (es : List Cand) (sl : SubgroupList) (c : Cand) (r : SubgroupList × G × Bool),
    SLInv P N (es.map Cand.triple) sl → M.eval sl (es.foldl M.update M.init) c = .ok r →
    r.1 = sl ∧ r.2.1 = R.gain es c ∧ (R.gt (R.gain es c) R.zero → (r.2.2 = true ↔ R.admissible es c))

/-- the state of the selection loop after the candidates `pre` -/
def BestInv (R : Rule G) (es : List Cand) (pre : List (Option Cand)) (best : Option (Nat × Cand)) (g : G) : Prop :=
  (best = none ∧ g = R.zero ∧
    ∀ (x : Nat) (cx : Cand), pre[x]? = some (some cx) → R.admissible es cx → ¬ R.gt (R.gain es cx) R.zero) ∨
  ∃ i c, best = some (i, c) ∧ g = R.gain es c ∧ pre[i]? = some (some c) ∧ R.admissible es c ∧
    R.gt (R.gain es c) R.zero ∧
    ∀ (x : Nat) (cx : Cand), pre[x]? = some (some cx) → R.admissible es cx →
      ¬ R.gt (R.gain es cx) (R.gain es c) ∧ (x < i → R.gain es cx ≠ R.gain es c)

theorem BestInv.gt_zero {M : Miner G C} {R : Rule G} {P N : Bits} (hM : Implements M R P N) {es : List Cand}
    {pre : List (Option Cand)} {best : Option (Nat × Cand)} {g : G} (h : BestInv R es pre best g) {a : G} (ha : R.gt a g) :
    R.gt a R.zero := by
  rcases h with ⟨-, rfl, -⟩ | ⟨i, c, -, rfl, -, -, hc, -⟩
  · exact ha
  · exact hM.trans _ _ _ ha hc

theorem getElem?_concat_some {α : Type} (l : List α) (a b : α) (x : Nat) (h : (l ++ [a])[x]? = some b) :
    l[x]? = some b ∨ (x = l.length ∧ a = b) := by
  rcases Nat.lt_trichotomy x l.length with hx | hx | hx
  · rw [List.getElem?_append_left hx] at h; exact .inl h
  · subst hx; simp at h; exact .inr ⟨rfl, h⟩
  · rw [List.getElem?_eq_none (by simp; omega)] at h; cases h

theorem BestInv.skip {R : Rule G} {es : List Cand} {pre : List (Option Cand)} {best : Option (Nat × Cand)} {g : G}
    (h : BestInv R es pre best g) (o : Option Cand)
    (ho : ∀ c, o = some c → R.admissible es c → ¬ R.gt (R.gain es c) g) : BestInv R es (pre ++ [o]) best g := by
  rcases h with ⟨h1, h2, h3⟩ | ⟨i, c, h1, h2, h3, h4, h5, h6⟩
  · refine .inl ⟨h1, h2, fun x cx hx ha => ?_⟩
    rcases getElem?_concat_some _ _ _ _ hx with hx | ⟨-, hx⟩
    · exact h3 x cx hx ha
    · have := ho cx hx ha; rwa [h2] at this
  · have hi : i < pre.length := by
      by_contra hc
      rw [List.getElem?_eq_none (by omega)] at h3; cases h3
    refine .inr ⟨i, c, h1, h2, by rw [List.getElem?_append_left hi]; exact h3, h4, h5, fun x cx hx ha => ?_⟩
    rcases getElem?_concat_some _ _ _ _ hx with hx | ⟨hx, hx'⟩
    · exact h6 x cx hx ha
    · exact ⟨by rw [← h2]; exact ho cx hx' ha, fun hlt => absurd hlt (by omega)⟩

theorem selectBest_spec {M : Miner G C} {R : Rule G} {P N : Bits} (hM : Implements M R P N) {es : List Cand}
    {sl : SubgroupList} (hs : SLInv P N (es.map Cand.triple) sl) (suf : List (Option Cand)) (pre : List (Option Cand))
    (best : Option (Nat × Cand)) (g : G) (h : BestInv R es pre best g) (res : SubgroupList × Option (Nat × Cand))
    (hr : selectBest M (es.foldl M.update M.init) suf pre.length sl best g = .ok res) :
    res.1 = sl ∧ ∃ g', BestInv R es (pre ++ suf) res.2 g' := by
  induction suf generalizing pre best g with
  | nil =>
    unfold selectBest at hr
    cases hr
    exact ⟨rfl, g, by simpa using h⟩
  | cons o suf ih =>
    have e1 : pre.length + 1 = (pre ++ [o]).length := by simp
    have e2 : pre ++ o :: suf = (pre ++ [o]) ++ suf := by simp
    cases o with
    | none =>
      unfold selectBest at hr
      rw [e1] at hr
      rw [e2]
      exact ih _ _ _ (h.skip none (by intro c hc; cases hc)) hr
    | some c =>
      unfold selectBest at hr
      split at hr
      · cases hr
      rename_i sl' gain cond he
      obtain ⟨h1, h2, h3⟩ := hM.eval es sl c _ hs he
      simp only at h1 h2 h3
      subst h1 h2
      rw [e1] at hr
      rw [e2]
      split at hr
      · rename_i hc
        rw [Bool.and_eq_true, hM.gt] at hc
        have hz := h.gt_zero hM hc.1
        refine ih _ _ _ ?_ hr
        refine .inr ⟨pre.length, c, rfl, rfl, by simp, (h3 hz).1 hc.2, hz, fun x cx hx ha => ?_⟩
        rcases getElem?_concat_some _ _ _ _ hx with hx | ⟨hx, hx'⟩
        · rcases h with ⟨-, rfl, h6⟩ | ⟨i, c', -, rfl, -, -, -, h6⟩
          · have := h6 x cx hx ha
            exact ⟨fun hgt => this (hM.trans _ _ _ hgt hc.1), fun _ he => this (he ▸ hc.1)⟩
          · have := (h6 x cx hx ha).1
            exact ⟨fun hgt => this (hM.trans _ _ _ hgt hc.1), fun _ he => this (he ▸ hc.1)⟩
        · cases hx'
          exact ⟨hM.irrefl _, fun hlt => absurd hlt (by omega)⟩
      · rename_i hc
        refine ih _ _ _ (h.skip (some c) ?_) hr
        intro c' hc' ha hgt
        cases hc'
        apply hc
        rw [Bool.and_eq_true, hM.gt]
        exact ⟨hgt, (h3 (h.gt_zero hM hgt)).2 ha⟩

/-- the optional candidates left are those available after the choices `E` -/
def Left (R : Rule G) (cs : List Cand) (E : List Nat) (co : List (Option Cand)) : Prop :=
  co.length = cs.length ∧ ∀ (x : Nat) (c : Cand), co[x]? = some (some c) ↔ cs[x]? = some c ∧ Available R.related cs E x

theorem Left.start (R : Rule G) (cs : List Cand) : Left R cs [] (cs.map some) := by
  refine ⟨by simp, fun x c => ?_⟩
  simp [Available]

theorem Left.choose {M : Miner G C} {R : Rule G} {P N : Bits} (hM : Implements M R P N) {cs : List Cand} {E : List Nat}
    {co : List (Option Cand)} (h : Left R cs E co) {i : Nat} {c : Cand} (hi : co[i]? = some (some c)) :
    Left R cs (E ++ [i]) (deleteRelated M c.sub (co.set i none)) := by
  obtain ⟨hl, hx⟩ := h
  have hci := ((hx i c).1 hi).1
  refine ⟨by simp [deleteRelated, hl], fun x cx => ?_⟩
  have e : (deleteRelated M c.sub (co.set i none))[x]? = some (some cx) ↔
      (x ≠ i ∧ co[x]? = some (some cx) ∧ ¬ R.related c.sub cx.sub) := by
    unfold deleteRelated
    rw [List.getElem?_map, List.getElem?_set]
    by_cases hxi : i = x
    · subst hxi
      by_cases hlt : i < co.length
      · rw [if_pos rfl, if_pos hlt]
        simp
      · rw [if_pos rfl, if_neg hlt]; simp
    · rw [if_neg hxi]
      cases hcx : co[x]? with
      | none => simp
      | some o =>
        cases o with
        | none => simp
        | some c' =>
          simp only [Option.map_some, Option.some.injEq]
          by_cases hd : M.deletes c.sub c'.sub = true
          · rw [if_pos hd]
            have := (hM.deletes _ _).1 hd
            constructor
            · intro hc; cases hc
            · rintro ⟨-, rfl, hr⟩; exact absurd this hr
          · rw [if_neg hd]
            have : ¬ R.related c.sub c'.sub := fun hc => hd ((hM.deletes _ _).2 hc)
            constructor
            · intro hc; cases hc; exact ⟨fun hc => hxi hc.symm, rfl, this⟩
            · rintro ⟨-, rfl, hr⟩; rfl
  rw [e, hx x cx]
  unfold Available
  constructor
  · rintro ⟨h1, ⟨h2, h3, h4⟩, h5⟩
    refine ⟨h2, by simp [h1, h3], fun e he ce cx' hce hcx' => ?_⟩
    rcases List.mem_append.1 he with he | he
    · exact h4 e he ce cx' hce hcx'
    · rw [List.mem_singleton.1 he, hci] at hce
      rw [h2] at hcx'
      cases hce; cases hcx'
      exact h5
  · rintro ⟨h2, h3, h4⟩
    refine ⟨by intro hc; apply h3; simp [hc], ⟨h2, fun hc => h3 (List.mem_append_left _ hc),
      fun e he ce cx' hce hcx' => h4 e (List.mem_append_left _ he) ce cx' hce hcx'⟩, ?_⟩
    exact h4 i (by simp) c cx hci h2

theorem remaining_map_le (f : Option Cand → Option Cand) (hf : f none = none) (co : List (Option Cand)) :
    remaining (co.map f) ≤ remaining co := by
  unfold remaining
  rw [List.countP_map]
  apply List.countP_mono_left
  intro o _ ho
  cases o with
  | none => simp [hf] at ho
  | some c => rfl

theorem remaining_set_lt (co : List (Option Cand)) (i : Nat) (c : Cand) (h : co[i]? = some (some c)) :
    remaining (co.set i none) + 1 = remaining co := by
  induction co generalizing i with
  | nil => simp at h
  | cons o co ih =>
    cases i with
    | zero => simp at h; subst h; simp [remaining]
    | succ i =>
      have := ih i (by simpa using h)
      unfold remaining at this ⊢
      rw [List.set_cons_succ, List.countP_cons, List.countP_cons]
      omega

theorem remaining_choose (M : Miner G C) (s : Subgroup) (co : List (Option Cand)) (i : Nat) (c : Cand)
    (h : co[i]? = some (some c)) : remaining (deleteRelated M s (co.set i none)) + 1 ≤ remaining co := by
  have h1 := remaining_set_lt co i c h
  have h2 : remaining (deleteRelated M s (co.set i none)) ≤ remaining (co.set i none) :=
    remaining_map_le _ rfl _
  omega

theorem entriesAt_concat {cs : List Cand} {idx : List Nat} {i : Nat} {c : Cand} (h : cs[i]? = some c) :
    entriesAt cs (idx ++ [i]) = entriesAt cs idx ++ [c] := by
  simp [entriesAt, List.filterMap_append, h]

/-- the picks of a prefix -/
def Picks (R : Rule G) (cs : List Cand) (E idx : List Nat) : Prop :=
  ∀ j i, idx[j]? = some i → R.IsPick cs (E ++ idx.take j) (entriesAt cs (idx.take j)) i

theorem Picks.concat {R : Rule G} {cs : List Cand} {E idx : List Nat} (h : Picks R cs E idx) {i : Nat}
    (hi : R.IsPick cs (E ++ idx) (entriesAt cs idx) i) : Picks R cs E (idx ++ [i]) := by
  intro j x hj
  rcases getElem?_concat_some _ _ _ _ hj with hj' | ⟨rfl, rfl⟩
  · have hlt : j < idx.length := by
      by_contra hc
      rw [List.getElem?_eq_none (by omega)] at hj'; cases hj'
    rw [List.take_append_of_le_length (by omega)]
    exact h j x hj'
  · rw [List.take_left]
    exact hi

theorem slInv_len {P N : Bits} {st : List (Subgroup × Bits × Bits)} {l : SubgroupList} (h : SLInv P N st l) :
    l.len = st.length := by
  unfold SubgroupList.len; rw [h.subs, List.length_map]

theorem slInv_add' {P N : Bits} {st : List (Subgroup × Bits × Bits)} {l l' : SubgroupList} (h : SLInv P N st l)
    {s : Subgroup} {p n : Bits} (ha : l.add s p n = .ok l') :
    p.length = P.length ∧ n.length = P.length ∧ SLInv P N (st ++ [(s, p, n)]) l' := by
  have hlen : p.length = P.length ∧ n.length = P.length := by
    unfold SubgroupList.add at ha
    split at ha
    · cases ha
    split at ha
    · cases ha
    rename_i h1 h2
    rw [h.dist] at h1 h2
    exact ⟨(not_not.1 h1).symm, (not_not.1 h2).symm⟩
  obtain ⟨l'', h1, h2⟩ := slInv_add h s p n hlen.1 hlen.2
  rw [h1] at ha
  cases ha
  exact ⟨hlen.1, hlen.2, h2⟩

theorem entriesOf_eq {P N : Bits} {es : List Cand} {l : SubgroupList} (h : SLInv P N (es.map Cand.triple) l) :
    entriesOf l = es := by
  unfold entriesOf
  rw [h.subs, h.oP, h.oN]
  clear h
  induction es with
  | nil => rfl
  | cons c es ih =>
    simp only [List.map_cons, List.zip_cons_cons, List.zipWith_cons_cons]
    rw [ih]
    rfl

/-- one list -/
theorem buildList_spec {M : Miner G C} {R : Rule G} {P N : Bits} (hM : Implements M R P N) {cs : List Cand} {E : List Nat}
    (fuel : Nat) (idx : List Nat) (sl : SubgroupList) (co : List (Option Cand))
    (hs : SLInv P N ((entriesAt cs idx).map Cand.triple) sl) (hlen : (entriesAt cs idx).length = idx.length)
    (hp : Picks R cs E idx) (hsize : ∀ m, R.maxSize = some m → idx.length ≤ m) (hl : Left R cs (E ++ idx) co)
    (hf : remaining co < fuel) (res : Option (SubgroupList × List (Option Cand)))
    (hr : buildList M fuel sl ((entriesAt cs idx).foldl M.update M.init) co = .ok res) :
    ∃ idx' sl' co', res = some (sl', co') ∧ SLInv P N ((entriesAt cs idx').map Cand.triple) sl' ∧
      (entriesAt cs idx').length = idx'.length ∧ R.IsList cs E idx' ∧ Left R cs (E ++ idx') co' := by
  induction fuel generalizing idx sl co with
  | zero => omega
  | succ fuel ih =>
    unfold buildList at hr
    have hsl := slInv_len hs
    rw [List.length_map, hlen] at hsl
    split at hr
    · rename_i hcond
      split at hr
      · cases hr
      · rename_i sl1 he
        obtain ⟨h1, g', h2⟩ := selectBest_spec hM hs co [] none M.zero
          (.inl ⟨rfl, hM.zero, by simp⟩) _ he
        simp only at h1 h2
        subst h1
        cases hr
        refine ⟨idx, sl1, co, rfl, hs, hlen, ⟨hp, hsize, .inr ?_⟩, hl⟩
        rcases h2 with ⟨-, -, h3⟩ | ⟨i, c, h3, -⟩
        · intro x cx hcx hav ha
          exact h3 x cx (by simpa using (hl.2 x cx).2 ⟨hcx, hav⟩) ha
        · cases h3
      · rename_i sl1 i c he
        obtain ⟨h1, g', h2⟩ := selectBest_spec hM hs co [] none M.zero
          (.inl ⟨rfl, hM.zero, by simp⟩) _ he
        simp only [List.nil_append] at h1 h2
        subst h1
        rcases h2 with ⟨h3, -⟩ | ⟨i', c', h3, -, h4, h5, h6, h7⟩
        · cases h3
        cases h3
        have hci := ((hl.2 i c).1 h4)
        split at hr
        · cases hr
        rename_i sl2 hadd
        obtain ⟨-, -, hs2⟩ := slInv_add' hs hadd
        have eE := entriesAt_concat (idx := idx) hci.1
        have hs2' : SLInv P N ((entriesAt cs (idx ++ [i])).map Cand.triple) sl2 := by
          rw [eE, List.map_append]; exact hs2
        have hpick : R.IsPick cs (E ++ idx) (entriesAt cs idx) i := by
          refine ⟨c, hci.1, hci.2, h5, h6, fun x cx hcx hav ha => ?_⟩
          exact h7 x cx ((hl.2 x cx).2 ⟨hcx, hav⟩) ha
        refine ih (idx ++ [i]) sl2 _ hs2' (by rw [eE]; simp [hlen]) (hp.concat hpick) ?_
          (by rw [← List.append_assoc]; exact hl.choose hM h4) ?_ ?_
        · intro m hm
          rw [← hM.size] at hm
          rw [hm] at hcond
          simp only [belowMax, decide_eq_true_eq] at hcond
          simp; omega
        · have := remaining_choose M c.sub co i c h4
          omega
        · rw [eE, List.foldl_append]; exact hr
    · rename_i hcond
      cases hr
      refine ⟨idx, sl, co, rfl, hs, hlen, ⟨hp, hsize, .inl ?_⟩, hl⟩
      cases hm : M.maxSize with
      | none => rw [hm] at hcond; simp [belowMax] at hcond
      | some m =>
        rw [hm] at hcond
        simp only [belowMax, decide_eq_true_eq] at hcond
        have := hsize m (by rw [← hM.size, hm])
        rw [← hM.size, hm]
        congr 1
        omega

/-- all the lists -/
theorem buildLists_spec {M : Miner G C} {R : Rule G} {P N : Bits} (hM : Implements M R P N) {cs : List Cand}
    {l0 : SubgroupList} (h0 : SLInv P N [] l0) (k : Nat) (E : List Nat) (co : List (Option Cand)) (hl : Left R cs E co)
    (res : List SubgroupList) (hr : buildLists M l0 k co = .ok res) :
    ∃ run : List (List Nat), run.length = k ∧ res.length = k ∧ (∀ idx ∈ run, ∀ i ∈ idx, i < cs.length) ∧
      List.Forall₂ (fun l idx => SLInv P N ((entriesAt cs idx).map Cand.triple) l) res run ∧
      (∀ j idx, run[j]? = some idx → R.IsList cs (E ++ (run.take j).flatten) idx) := by
  induction k generalizing E co res with
  | zero =>
    unfold buildLists at hr
    cases hr
    exact ⟨[], rfl, rfl, by simp, .nil, by simp⟩
  | succ k ih =>
    unfold buildLists at hr
    split at hr
    · cases hr
    · rename_i he
      obtain ⟨idx', sl', co', h1, -⟩ := buildList_spec hM (E := E) _ [] l0 co h0 rfl (by intro j i h; simp at h)
        (by simp) (by simpa using hl) (Nat.lt_succ_self _) _ he
      cases h1
    · rename_i sl cs' he
      obtain ⟨idx', sl', co', h1, h2, h3, h4, h5⟩ := buildList_spec hM (E := E) _ [] l0 co h0 rfl (by intro j i h; simp at h)
        (by simp) (by simpa using hl) (Nat.lt_succ_self _) _ he
      cases h1
      split at hr
      · cases hr
      rename_i rest hrest
      cases hr
      obtain ⟨run, r1, r2, r3, r4, r5⟩ := ih (E ++ idx') _ h5 _ hrest
      refine ⟨idx' :: run, by simp [r1], by simp [r2], ?_, .cons h2 r4, ?_⟩
      · intro idx hidx i hi
        rcases List.mem_cons.1 hidx with rfl | hidx
        · obtain ⟨j, hj⟩ := List.mem_iff_getElem?.1 hi
          obtain ⟨c, hc, -⟩ := h4.pick j i hj
          by_contra hcon
          rw [List.getElem?_eq_none (by omega)] at hc; cases hc
        · exact r3 idx hidx i hi
      · intro j idx hj
        cases j with
        | zero =>
          simp at hj
          subst hj
          simpa using h4
        | succ j =>
          have := r5 j idx (by simpa using hj)
          simpa [List.append_assoc] using this

end Verif

import Verif.Lemmas.SDMap
import Verif.Lemmas.Sort
import Verif.Model.SDMapStar
/-! SDMapStar: the list of best qualities, and the descriptions visited by a run. -/
namespace Verif

/-! ### sorting -/

theorem bisectLoop_le (p : Nat → Bool) (lo hi : Nat) (h : lo ≤ hi) : bisectLoop p lo hi ≤ hi := by
  fun_induction bisectLoop p lo hi with
  | case1 lo hi h1 mid hp ih => exact ih (by omega)
  | case2 lo hi h1 mid hp ih => have := ih (by omega); omega
  | case3 lo hi h1 => exact h

/-- whatever the comparison says, the sort returns a permutation -/
theorem pySort_perm {α : Type} (lt : α → α → Bool) (l : List α) : (pySort lt l).Perm l := by
  have : ∀ (l acc : List α), (l.foldl (binaryInsert lt) acc).Perm (acc ++ l) := by
    intro l
    induction l with
    | nil => simp
    | cons x l ih =>
      intro acc
      refine (ih _).trans ?_
      have h1 : (binaryInsert lt acc x).Perm (x :: acc) := insertIdx_perm (bisectLoop_le _ _ _ (Nat.zero_le _)) x
      refine (h1.append_right l).trans ?_
      simpa using (List.perm_middle (a := x) (l₁ := acc) (l₂ := l)).symm
  exact (this _ _).trans (countRun_perm lt l)

namespace SDMapStarConfig

/-! ### the list of best qualities -/

/-- `ks` holds the `k` greatest values of `seen`, in ascending order -/
structure BestOf (k : Nat) (seen ks : List Rat) : Prop where
  sorted : ks.Pairwise (· ≤ ·)
  length : ks.length = min k seen.length
  rest : ∃ rest, seen.Perm (rest ++ ks) ∧ ∀ a ∈ rest, ∀ b ∈ ks, a ≤ b

theorem sortQ_perm (l : List Rat) : (stableSort (fun a b => decide (a ≤ b)) l).Perm l := stableSort_perm l

theorem sortQ_sorted (l : List Rat) : (stableSort (fun a b => decide (a ≤ b)) l).Pairwise (· ≤ ·) := by
  have := pairwise_stableSort (le := fun a b : Rat => decide (a ≤ b))
    (fun a b c h1 h2 => by simp only [decide_eq_true_eq] at *; exact le_trans h1 h2)
    (fun a b => by
      rcases le_total a b with h | h
      · simp [h]
      · simp [h]) l
  exact this.imp (by simp)

/-- one update keeps the invariant -/
theorem pushK_best {k : Nat} {seen ks ks' : List Rat} {q : Rat} (h : BestOf k seen ks) (hp : pushK k ks q = .ok ks') :
    BestOf k (seen ++ [q]) ks' := by
  unfold pushK at hp
  obtain ⟨rest, hr, hle⟩ := h.rest
  have hlen : seen.length = rest.length + ks.length := by rw [hr.length_eq, List.length_append]
  by_cases hk : ks.length < k
  · rw [if_pos hk] at hp
    cases hp
    have hlt : seen.length < k := by have := h.length; omega
    have hr0 : rest = [] := by
      have := h.length
      have : rest.length = 0 := by omega
      simpa using this
    refine ⟨sortQ_sorted _, ?_, [], ?_, by simp⟩
    · rw [(sortQ_perm _).length_eq]; simp; have := h.length; omega
    · simp only [List.nil_append]
      refine (List.Perm.append_right _ ?_).trans (sortQ_perm _).symm
      simpa [hr0] using hr
  · rw [if_neg hk] at hp
    have hks : ks.length = k := by have := h.length; omega
    cases ks with
    | nil => simp at hp
    | cons m tail =>
      simp only at hp
      have hsm := List.pairwise_cons.1 h.sorted
      by_cases hm : m < q
      · rw [if_pos hm] at hp
        cases hp
        refine ⟨sortQ_sorted _, ?_, rest ++ [m], ?_, ?_⟩
        · rw [(sortQ_perm _).length_eq]; simp at hks hlen ⊢; omega
        · refine (List.Perm.append_right _ hr).trans ?_
          rw [List.append_assoc, List.append_assoc]
          refine List.Perm.append_left _ ?_
          simp only [List.cons_append, List.nil_append]
          refine List.Perm.cons _ ?_
          refine List.Perm.trans ?_ (sortQ_perm _).symm
          exact (List.perm_append_singleton q tail)
        · intro a ha b hb
          have hb' : m ≤ b := by
            rcases List.mem_cons.1 ((sortQ_perm _).mem_iff.1 hb) with rfl | hb
            · exact le_of_lt hm
            · exact hsm.1 b hb
          rcases List.mem_append.1 ha with ha | ha
          · exact le_trans (hle a ha m (by simp)) hb'
          · rw [List.mem_singleton.1 ha]; exact hb'
      · rw [if_neg hm] at hp
        cases hp
        refine ⟨h.sorted, ?_, q :: rest, ?_, ?_⟩
        · simp at hks hlen ⊢; omega
        · refine (List.perm_append_singleton q seen).trans ?_
          exact List.Perm.cons _ hr
        · intro a ha b hb
          rcases List.mem_cons.1 ha with rfl | ha
          · have hq := not_lt.1 hm
            rcases List.mem_cons.1 hb with rfl | hb
            · exact hq
            · exact le_trans hq (hsm.1 b hb)
          · exact hle a ha b hb

/-- the update fails only for `k = 0` -/
theorem pushK_ok {k : Nat} (hk : 0 < k) {seen ks : List Rat} (q : Rat) (h : BestOf k seen ks) : ∃ ks', pushK k ks q = .ok ks' ∧ ks' ≠ [] := by
  unfold pushK
  by_cases hl : ks.length < k
  · rw [if_pos hl]
    refine ⟨_, rfl, ?_⟩
    intro hn
    have := (sortQ_perm (ks ++ [q])).length_eq
    rw [hn] at this
    simp at this
  · rw [if_neg hl]
    cases ks with
    | nil => simp at hl; omega
    | cons m tail =>
      simp only
      by_cases hm : m < q
      · rw [if_pos hm]
        refine ⟨_, rfl, ?_⟩
        intro hn
        have := (sortQ_perm (q :: tail)).length_eq
        rw [hn] at this
        simp at this
      · rw [if_neg hm]
        exact ⟨_, rfl, by simp⟩

/-- the smallest of a full list never decreases -/
theorem pushK_head_mono {k : Nat} {seen ks ks' : List Rat} {q m m' : Rat} (h : BestOf k seen ks) (hfull : ks.length = k)
    (hp : pushK k ks q = .ok ks') (hm : ks.head? = some m) (hm' : ks'.head? = some m') : m ≤ m' := by
  unfold pushK at hp
  rw [if_neg (by omega)] at hp
  cases ks with
  | nil => simp at hm
  | cons x tail =>
    simp at hm; subst hm
    simp only at hp
    have hsm := List.pairwise_cons.1 h.sorted
    by_cases hx : x < q
    · rw [if_pos hx] at hp
      cases hp
      have : m' ∈ stableSort (fun a b => decide (a ≤ b)) (q :: tail) := List.mem_of_mem_head? hm'
      rcases List.mem_cons.1 ((sortQ_perm _).mem_iff.1 this) with rfl | hb
      · exact le_of_lt hx
      · exact hsm.1 _ hb
    · rw [if_neg hx] at hp
      cases hp
      simp at hm'
      exact le_of_eq hm'

/-! ### runs -/

/-- a sequence of visits: description, counters, and whether it was handled (not pruned) -/
inductive Steps (cfg : SDMapStarConfig) (target : Str × Str) (TP FP : Nat) : StarState → List (Emission Selector × Bool) → StarState → Prop
  | nil (st) : Steps cfg target TP FP st [] st
  | cons {st st1 st2 X c b n vs} : cfg.visit target TP FP st X c = .ok (st1, b) → Steps cfg target TP FP { st1 with condPruned := n } vs st2 →
      Steps cfg target TP FP st (((X, c), b) :: vs) st2

variable {cfg : SDMapStarConfig} {target : Str × Str} {TP FP : Nat}

theorem Steps.append {st st1 st2 : StarState} {vs ws : List (Emission Selector × Bool)} (h1 : cfg.Steps target TP FP st vs st1)
    (h2 : cfg.Steps target TP FP st1 ws st2) : cfg.Steps target TP FP st (vs ++ ws) st2 := by
  induction h1 with
  | nil => exact h2
  | cons hv _ ih => exact .cons hv (ih h2)

theorem visit_cases {st st1 : StarState} {X : List Selector} {c : Cnt} {b : Bool} (h : cfg.visit target TP FP st X c = .ok (st1, b)) :
    ∃ q o m rest, cfg.kQuality TP FP c = .ok q ∧ cfg.oe TP FP c = .ok o ∧ pushK cfg.num st.ks q = .ok (m :: rest) ∧ st1.ks = m :: rest ∧
      st1.visits = st.visits ++ [(X, c)] ∧ st1.condPruned = st.condPruned ∧
      ((b = false ∧ m > o ∧ st1.base = st.base ∧ st1.pruned = st.pruned + 1) ∨
       (b = true ∧ ¬ m > o ∧ cfg.toSDMapConfig.handle target TP FP st.base (Pattern.new X, c) = .ok st1.base ∧ st1.pruned = st.pruned)) := by
  unfold visit at h
  cases hq : cfg.kQuality TP FP c with
  | error e => rw [hq] at h; cases h
  | ok q =>
    cases hp : pushK cfg.num st.ks q with
    | error e => rw [hq] at h; simp only [bind, Except.bind, hp] at h; cases h
    | ok ks =>
      cases ho : cfg.oe TP FP c with
      | error e => rw [hq] at h; simp only [bind, Except.bind, hp, ho] at h; cases h
      | ok o =>
        rw [hq] at h; simp only [bind, Except.bind, hp, ho] at h
        cases ks with
        | nil => simp at h
        | cons m rest =>
          simp only at h
          by_cases hm : m > o
          · rw [if_pos hm] at h
            cases h
            exact ⟨q, o, m, rest, rfl, rfl, hp, rfl, rfl, rfl, Or.inl ⟨rfl, hm, rfl, rfl⟩⟩
          · rw [if_neg hm] at h
            cases hh : cfg.toSDMapConfig.handle target TP FP st.base (Pattern.new X, c) with
            | error e => rw [hh] at h; cases h
            | ok b' =>
              rw [hh] at h
              cases h
              exact ⟨q, o, m, rest, rfl, rfl, hp, rfl, rfl, rfl, Or.inr ⟨rfl, hm, rfl, rfl⟩⟩

/-- the calls of `_handle_individual_result` in a run -/
theorem Steps.base {st st' : StarState} {vs : List (Emission Selector × Bool)} (h : cfg.Steps target TP FP st vs st') :
    ((vs.filter (fun v => v.2)).map (fun v => (Pattern.new v.1.1, v.1.2))).foldlM (cfg.toSDMapConfig.handle target TP FP) st.base = .ok st'.base ∧
    st'.visits = st.visits ++ vs.map (fun v => v.1) ∧ st'.pruned = st.pruned + (vs.filter (fun v => !v.2)).length := by
  induction h with
  | nil => simp; rfl
  | cons hv _ ih =>
    obtain ⟨q, o, m, rest, _, _, _, _, h5, _, h7⟩ := visit_cases hv
    obtain ⟨i1, i2, i3⟩ := ih
    rcases h7 with ⟨rfl, _, h8, h9⟩ | ⟨rfl, _, h8, h9⟩
    · refine ⟨?_, ?_, ?_⟩
      · rw [List.filter_cons_of_neg (by simp), ← h8]; exact i1
      · rw [i2]; simp [h5]
      · rw [i3]; simp [h9]; omega
    · refine ⟨?_, ?_, ?_⟩
      · rw [List.filter_cons_of_pos (by simp), List.map_cons, List.foldlM_cons, h8]; exact i1
      · rw [i2]; simp [h5]
      · rw [i3]; simp [h9]

/-- the list of best qualities after a run -/
theorem Steps.best {st st' : StarState} {vs : List (Emission Selector × Bool)} (h : cfg.Steps target TP FP st vs st')
    {seen : List Rat} (hb : BestOf cfg.num seen st.ks) :
    ∃ qs, vs.map (fun v => cfg.kQuality TP FP v.1.2) = qs.map .ok ∧ BestOf cfg.num (seen ++ qs) st'.ks := by
  induction h generalizing seen with
  | nil => exact ⟨[], rfl, by simpa using hb⟩
  | cons hv _ ih =>
    obtain ⟨q, o, m, rest, h1, h2, h3, h4, _⟩ := visit_cases hv
    have := pushK_best hb h3
    rw [← h4] at this
    obtain ⟨qs, i1, i2⟩ := ih this
    exact ⟨q :: qs, by simp [h1, i1], by simpa using i2⟩

/-- the optimistic estimate of counters bounds the quality of all smaller counters -/
def Bound (cfg : SDMapStarConfig) (TP FP : Nat) : Prop :=
  ∀ c c' : Cnt, c ≤ (TP, FP) → c' ≤ c → 0 < c'.1 + c'.2 → ∀ q o, cfg.kQuality TP FP c' = .ok q → cfg.oe TP FP c = .ok o → q ≤ o

/-- what is known about a pruned visit at the end of a run: the list of best qualities is full and its smallest value is
greater than the optimistic estimate of the pruned counters -/
theorem Steps.prunedBound {st st' : StarState} {vs : List (Emission Selector × Bool)} (h : cfg.Steps target TP FP st vs st')
    (hv : cfg.Bound TP FP) (hg : ∀ v ∈ vs, v.1.2 ≤ (TP, FP) ∧ 0 < v.1.2.1 + v.1.2.2) {seen : List Rat} (hb : BestOf cfg.num seen st.ks)
    {P : List (Emission Selector)} (hP : ∀ e ∈ P, ∃ o m, cfg.oe TP FP e.2 = .ok o ∧ st.ks.head? = some m ∧ st.ks.length = cfg.num ∧ o < m) :
    ∀ e, (e ∈ P ∨ (e, false) ∈ vs) → ∃ o m, cfg.oe TP FP e.2 = .ok o ∧ st'.ks.head? = some m ∧ st'.ks.length = cfg.num ∧ o < m := by
  induction h generalizing seen P with
  | nil =>
    rintro e (he | he)
    · exact hP e he
    · simp at he
  | @cons st st1 st2 X c b n vs hvis _ ih =>
    obtain ⟨q, o, m, rest, h1, h2, h3, h4, h5, h6, h7⟩ := visit_cases hvis
    have hb1 := pushK_best hb h3
    rw [← h4] at hb1
    have hold : ∀ e ∈ P, ∃ o m, cfg.oe TP FP e.2 = .ok o ∧ st1.ks.head? = some m ∧ st1.ks.length = cfg.num ∧ o < m := by
      intro e he
      obtain ⟨o', m', e1, e2, e3, e4⟩ := hP e he
      refine ⟨o', m, e1, by rw [h4]; rfl, ?_, ?_⟩
      · rw [hb1.length, List.length_append]
        have := hb.length
        omega
      · exact lt_of_lt_of_le e4 (pushK_head_mono hb e3 h3 e2 rfl)
    have hnew : ∀ e ∈ P ++ (if b then [] else [(X, c)]), ∃ o m, cfg.oe TP FP e.2 = .ok o ∧ st1.ks.head? = some m ∧ st1.ks.length = cfg.num ∧ o < m := by
      intro e he
      rcases List.mem_append.1 he with he | he
      · exact hold e he
      · rcases h7 with ⟨rfl, hmo, _⟩ | ⟨rfl, _⟩
        · simp only [Bool.false_eq_true, if_false, List.mem_singleton] at he
          subst he
          refine ⟨o, m, h2, by rw [h4]; rfl, ?_, hmo⟩
          -- otherwise everything seen, in particular the quality just added, is in the list
          by_contra hne
          have hlt : st1.ks.length < cfg.num := by have := hb1.length; omega
          obtain ⟨rest', r1, r2⟩ := hb1.rest
          have hr0 : rest' = [] := by
            have e1 := hb1.length
            have e2 := r1.length_eq
            simp only [List.length_append] at e1 e2
            have : rest'.length = 0 := by omega
            simpa using this
          have hq : q ∈ st1.ks := by
            have : q ∈ seen ++ [q] := by simp
            have := r1.mem_iff.1 this
            simpa [hr0] using this
          have hmq : m ≤ q := by
            have := hb1.sorted
            rw [h4] at this hq
            rcases List.mem_cons.1 hq with rfl | hq
            · exact le_refl _
            · exact (List.pairwise_cons.1 this).1 q hq
          have := hv c c (hg ((X, c), false) (by simp)).1 (le_refl _) (hg ((X, c), false) (by simp)).2 q o h1 h2
          exact absurd hmo (not_lt.2 (le_trans hmq this))
        · simp at he
    intro e he
    apply ih (fun v hv => hg v (List.mem_cons_of_mem _ hv)) (seen := seen ++ [q]) (P := P ++ (if b then [] else [(X, c)])) hb1 hnew
    rcases he with he | he
    · left; simp [he]
    · rcases List.mem_cons.1 he with he | he
      · left
        cases he
        simp
      · right; exact he

/-! ### the structure of a run -/

theorem mapM_snd {l : List (Selector × Cnt)} {m : List (Rat × Selector)} {f : Cnt → Except PyErr Rat}
    (h : l.mapM (fun e => do let o ← f e.2; return (o, e.1)) = .ok m) : m.map (·.2) = l.map (·.1) := by
  induction l generalizing m with
  | nil => simp only [List.mapM_nil] at h; cases h; rfl
  | cons e l ih =>
    rw [List.mapM_cons] at h
    cases hf : f e.2 with
    | error x => rw [hf] at h; cases h
    | ok o =>
      rw [hf] at h
      cases hr : l.mapM (fun e => do let o ← f e.2; return (o, e.1)) with
      | error x => simp only [bind, Except.bind, pure, Except.pure] at h hr; rw [hr] at h; cases h
      | ok m' =>
        have := ih hr
        simp only [bind, Except.bind, pure, Except.pure] at h hr
        rw [hr] at h
        cases h
        simp [this]

theorem oeOrder_perm {t : FPTree Selector} {l : List Selector} (h : cfg.oeOrder TP FP t = .ok l) : l.Perm (t.header.map (·.1)) := by
  unfold oeOrder at h
  cases hm : t.header.mapM (fun e => do let o ← cfg.oe TP FP e.2; return (o, e.1)) with
  | error e => rw [hm] at h; cases h
  | ok m =>
    rw [hm] at h
    simp only [bind, Except.bind, pure, Except.pure] at h
    cases h
    rw [← mapM_snd hm]
    apply List.Perm.map
    refine (List.reverse_perm _).trans ?_
    exact (pySort_perm _ _).trans (List.reverse_perm _)

/-- the order in which the selectors of a tree are visited -/
def orderStar (cfg : SDMapStarConfig) (TP FP : Nat) (t : FPTree Selector) : List Selector :=
  match cfg.oeOrder TP FP t with
  | .ok l => l
  | .error _ => t.header.map (·.1)

theorem orderStar_perm (t : FPTree Selector) : (cfg.orderStar TP FP t).Perm (t.header.map (·.1)) := by
  unfold orderStar
  cases h : cfg.oeOrder TP FP t with
  | ok l => exact oeOrder_perm h
  | error e => exact List.Perm.refl _

theorem pruneBase_spec {bound : Rat} {base b' : List (List Selector × Cnt)} {n : Nat} (h : cfg.pruneBase TP FP bound base = .ok (b', n)) :
    b'.Sublist base ∧ (n = 0 → b' = base) := by
  induction base generalizing b' n with
  | nil => simp only [pruneBase] at h; cases h; simp
  | cons b base ih =>
    unfold pruneBase at h
    cases ho : cfg.oe TP FP b.2 with
    | error e => rw [ho] at h; cases h
    | ok o =>
      rw [ho] at h
      cases hr : cfg.pruneBase TP FP bound base with
      | error e => simp only [bind, Except.bind] at h; rw [hr] at h; cases h
      | ok r =>
        simp only [bind, Except.bind] at h; rw [hr] at h
        simp only at h
        obtain ⟨i1, i2⟩ := ih hr
        by_cases hlt : o < bound
        · rw [if_pos hlt] at h
          cases h
          exact ⟨i1.trans (List.sublist_cons_self _ _), by simp⟩
        · rw [if_neg hlt] at h
          cases h
          exact ⟨i1.cons_cons _, fun hn => by rw [i2 hn]⟩

theorem wsum_sublist {α : Type} {L M : List (α × Cnt)} (h : L.Sublist M) (P : α → Prop) : wsum L P ≤ wsum M P := by
  induction h with
  | slnil => exact le_refl _
  | cons a _ ih =>
    rw [wsum_cons]
    exact le_trans ih (le_add_of_nonneg_left (Prod.le_def.2 ⟨Nat.zero_le _, Nat.zero_le _⟩))
  | cons_cons a _ ih =>
    rw [wsum_cons, wsum_cons]
    exact add_le_add_right ih _

/-- an enumeration of some sets that occur in the database, without repetition, with counts that are not too large -/
structure Lower (th : Thresholds) (D : FPTree.DB Selector) (F : List (Emission Selector)) : Prop where
  sound : ∀ e ∈ F, e.1 ≠ [] ∧ e.1.Nodup ∧ (∃ r ∈ D, ∀ x ∈ e.1, x ∈ r.1) ∧ e.2 ≤ FPTree.supp D e.1 ∧ th.ok e.2 = true
  distinct : F.Pairwise (fun e f => ¬ ∀ x, x ∈ e.1 ↔ x ∈ f.1)

/-- every element of the full enumeration was handled or contains a pruned description -/
def Accounted (us : List (Emission Selector × Bool)) (F : List (Emission Selector)) : Prop :=
  (us.map (·.1)).Sublist F ∧ ∀ e ∈ F, (e, true) ∈ us ∨ ∃ v, (v, false) ∈ us ∧ ∀ x ∈ v.1, x ∈ e.1

/-- visits of a description below `alpha` -/
def under (alpha : List Selector) (us : List (Emission Selector × Bool)) : List (Emission Selector × Bool) :=
  us.map (fun u => ((u.1.1 ++ alpha, u.1.2), u.2))

theorem under_append (alpha : List Selector) (us vs : List (Emission Selector × Bool)) :
    under alpha (us ++ vs) = under alpha us ++ under alpha vs := by simp [under]

theorem under_under (alpha : List Selector) (a : Selector) (us : List (Emission Selector × Bool)) :
    under alpha (under [a] us) = under (a :: alpha) us := by simp [under]

/-- the loop of the single-path branch -/
theorem visitAll_run (alpha : List Selector) (t : FPTree Selector) (L : List (List Selector)) (st st' : StarState)
    (h : L.foldlM (fun st beta => do
        let r ← cfg.visit target TP FP st (beta ++ alpha) (t.leastFrequentCnt beta)
        return r.1) st = .ok st') :
    ∃ us, cfg.Steps target TP FP st (under alpha us) st' ∧ st'.condPruned = st.condPruned ∧
      us.map (·.1) = L.map (fun b => (b, t.leastFrequentCnt b)) := by
  induction L generalizing st with
  | nil => simp only [List.foldlM_nil] at h; cases h; exact ⟨[], .nil _, rfl, rfl⟩
  | cons beta L ih =>
    rw [List.foldlM_cons] at h
    cases hv : cfg.visit target TP FP st (beta ++ alpha) (t.leastFrequentCnt beta) with
    | error e => rw [hv] at h; cases h
    | ok r =>
      rw [hv] at h
      obtain ⟨us, h1, h2, h3⟩ := ih r.1 h
      obtain ⟨_, _, _, _, _, _, _, _, _, h6, _⟩ := visit_cases (b := r.2) (st1 := r.1) hv
      refine ⟨((beta, t.leastFrequentCnt beta), r.2) :: us, .cons (n := r.1.condPruned) hv h1, h2.trans h6, by simp [h3]⟩

theorem fpgrowthStar_run {S : Selector → Prop} (hk : FPTree.InjOn Selector.dictKey S) (fuel : Nat) (st : StarState) (t : FPTree Selector)
    (alpha : List Selector) (st' : StarState) (h : cfg.fpgrowthStar target TP FP fuel st t alpha = .ok st')
    {R : Selector → Selector → Prop} {D : FPTree.DB Selector} (g : FPTree.Good S cfg.th R t D) :
    ∃ us, cfg.Steps target TP FP st (under alpha us) st' ∧ st.condPruned ≤ st'.condPruned ∧ Lower cfg.th D (us.map (·.1)) ∧
      (st'.condPruned = st.condPruned → Accounted us (FPTree.fpgrowth (cfg.orderStar TP FP) Selector.dictKey cfg.th fuel t [])) := by
  induction fuel generalizing st t alpha st' R D with
  | zero =>
    simp only [fpgrowthStar] at h
    cases h
    exact ⟨[], .nil _, le_refl _, ⟨by simp, by simp⟩, fun _ => ⟨by simp [FPTree.fpgrowth], by simp [FPTree.fpgrowth]⟩⟩
  | succ fuel ih =>
    unfold fpgrowthStar at h
    by_cases hs : t.singlePath = true
    · rw [if_pos hs] at h
      obtain ⟨us, h1, h2, h3⟩ := visitAll_run _ _ _ _ _ h
      have hE := FPTree.singlePath_exact g hs
      have hres : t.singlePathResults [] = us.map (·.1) := by
        rw [h3]; simp [FPTree.singlePathResults]
      rw [hres] at hE
      refine ⟨us, h1, le_of_eq h2.symm, ⟨fun e he => ?_, hE.distinct⟩, fun _ => ?_⟩
      · obtain ⟨a1, a2, a3, a4, a5⟩ := hE.sound e he
        exact ⟨a1, a2, a3, le_of_eq a4, a5⟩
      · unfold FPTree.fpgrowth
        rw [if_pos hs, hres]
        refine ⟨List.Sublist.refl _, fun e he => ?_⟩
        obtain ⟨u, hu, rfl⟩ := List.mem_map.1 he
        cases hu2 : u.2 with
        | true => left; rw [← hu2]; exact hu
        | false => right; exact ⟨u.1, by rw [← hu2]; exact hu, fun _ hx => hx⟩
    · rw [if_neg hs] at h
      cases hord : cfg.oeOrder TP FP t with
      | error e => rw [hord] at h; cases h
      | ok order =>
        rw [hord] at h
        have hperm := oeOrder_perm hord
        have hstar : cfg.orderStar TP FP t = order := by unfold orderStar; rw [hord]
        have hon : order.Nodup := hperm.nodup_iff.2 (FPTree.nodup_header g.holds)
        have hmem : ∀ s, s ∈ order ↔ ∃ r ∈ D, s ∈ r.1 := fun s => by rw [hperm.mem_iff, FPTree.mem_header g.holds]
        have hhd : ∀ s, s ∈ order → (t.header.lookup s).getD (0, 0) = FPTree.supp D [s] := by
          intro s hs'
          rw [FPTree.header_lookup g.holds g.nodup, if_pos ((hmem s).1 hs')]
          apply wsum_congr; intro e _; simp
        -- what the full enumeration emits for `a`
        let seg : Selector → List (Emission Selector) := fun a => (([a], (t.header.lookup a).getD (0, 0)) : Emission Selector) ::
          (if !(t.condTree Selector.dictKey cfg.th a).isEmpty then
            FPTree.fpgrowth (cfg.orderStar TP FP) Selector.dictKey cfg.th fuel (t.condTree Selector.dictKey cfg.th a) [a] else [])
        have hfull : FPTree.fpgrowth (cfg.orderStar TP FP) Selector.dictKey cfg.th (fuel + 1) t [] = order.flatMap seg := by
          conv_lhs => unfold FPTree.fpgrowth
          rw [if_neg hs, hstar]
        rw [hfull]
        -- the body of the loop
        have hbody : ∀ a ∈ order, ∀ s s', (do
            let r ← cfg.visit target TP FP s (a :: alpha) ((t.header.lookup a).getD (0, 0))
            if r.2 then do
              let c ← cfg.condTreeStar TP FP (r.1.ks.headD 0) t a
              let st := { r.1 with condPruned := r.1.condPruned + c.2 }
              if !c.1.isEmpty then cfg.fpgrowthStar target TP FP fuel st c.1 (a :: alpha) else .ok st
            else .ok r.1) = Except.ok s' →
            ∃ us, cfg.Steps target TP FP s (under alpha us) s' ∧ s.condPruned ≤ s'.condPruned ∧
              (∀ e ∈ us.map (·.1), ∃ X, e.1 = X ++ [a] ∧ X.Nodup ∧ (∀ x ∈ X, R x a) ∧ (∃ r ∈ D, ∀ x ∈ e.1, x ∈ r.1) ∧
                e.2 ≤ FPTree.supp D e.1 ∧ cfg.th.ok e.2 = true) ∧
              (us.map (·.1)).Pairwise (fun e f => ¬ ∀ x, x ∈ e.1 ↔ x ∈ f.1) ∧
              (s'.condPruned = s.condPruned → Accounted us (seg a)) := by
          intro a ha s s' hh
          cases hv : cfg.visit target TP FP s (a :: alpha) ((t.header.lookup a).getD (0, 0)) with
          | error e => rw [hv] at hh; cases hh
          | ok r =>
            rw [hv] at hh
            have hh' : (if r.2 then do
              let c ← cfg.condTreeStar TP FP (r.1.ks.headD 0) t a
              let st := { r.1 with condPruned := r.1.condPruned + c.2 }
              if !c.1.isEmpty then cfg.fpgrowthStar target TP FP fuel st c.1 (a :: alpha) else .ok st
              else .ok r.1) = Except.ok s' := hh
            clear hh
            obtain ⟨_, _, _, _, _, _, _, _, _, h6, _⟩ := visit_cases (b := r.2) (st1 := r.1) hv
            have hfirst : ∃ X, [a] = X ++ [a] ∧ X.Nodup ∧ (∀ x ∈ X, R x a) ∧ (∃ r ∈ D, ∀ x ∈ [a], x ∈ r.1) ∧
                (t.header.lookup a).getD (0, 0) ≤ FPTree.supp D [a] ∧ cfg.th.ok ((t.header.lookup a).getD (0, 0)) = true := by
              refine ⟨[], rfl, by simp, by simp, ?_, le_of_eq (hhd a ha), ?_⟩
              · obtain ⟨r, hr, har⟩ := (hmem a).1 ha
                exact ⟨r, hr, by simpa using har⟩
              · rw [FPTree.header_lookup g.holds g.nodup, if_pos ((hmem a).1 ha)]
                exact g.freq a ((hmem a).1 ha)
            cases hr2 : r.2 with
            | false =>
              rw [hr2] at hh'
              simp only [Bool.false_eq_true, if_false] at hh'
              cases hh'

              refine ⟨[(([a], (t.header.lookup a).getD (0, 0)), r.2)], .cons (n := r.1.condPruned) hv (.nil _), le_of_eq h6.symm, ?_, by simp, ?_⟩
              · intro e he
                simp only [List.map_cons, List.map_nil, List.mem_singleton] at he
                subst he
                exact hfirst
              · intro _
                refine ⟨by simp [seg], ?_⟩
                intro e he
                right
                refine ⟨([a], (t.header.lookup a).getD (0, 0)), by rw [hr2]; simp, ?_⟩
                rcases List.mem_cons.1 he with rfl | he
                · simp
                · split at he
                  · rw [FPTree.fpgrowth_append] at he
                    obtain ⟨f, _, rfl⟩ := List.mem_map.1 he
                    simp
                  · simp at he
            | true =>
              rw [hr2] at hh'
              simp only [if_true] at hh'
              cases hc : cfg.condTreeStar TP FP (r.1.ks.headD 0) t a with
              | error e => rw [hc] at hh'; cases hh'
              | ok c =>
                rw [hc] at hh'
                simp only [bind, Except.bind] at hh'
                have hhead : a ∈ t.header.map (·.1) := hperm.mem_iff.1 ha
                have hcont : ((t.header.map (·.1)).contains a) = true := by simpa only [List.contains_iff_mem] using hhead
                unfold condTreeStar at hc
                rw [if_pos hcont] at hc
                cases hpb : cfg.pruneBase TP FP (r.1.ks.headD 0) (t.horizontal a) with
                | error e => rw [hpb] at hc; cases hc
                | ok b =>
                  rw [hpb] at hc
                  simp only [bind, Except.bind, pure, Except.pure] at hc
                  cases hc
                  obtain ⟨hsub, hzero⟩ := pruneBase_spec (b' := b.1) (n := b.2) hpb
                  obtain ⟨R', D', g', hlen, hsound, hcomp⟩ := FPTree.condOf_good (th := cfg.th) hk g (a := a) (base := b.1)
                    (fun x hx => FPTree.horizontal_prefix g.holds a x (hsub.subset hx))
                  have hcondEq : b.2 = 0 → t.condTree Selector.dictKey cfg.th a = FPTree.condOf Selector.dictKey cfg.th b.1 := by
                    intro h0
                    unfold FPTree.condTree
                    rw [if_pos hcont, hzero h0]
                  by_cases hemp : (FPTree.condOf Selector.dictKey cfg.th b.1).isEmpty = true
                  · simp only [hemp, Bool.not_true, Bool.false_eq_true, if_false] at hh'
                    cases hh'
                    refine ⟨[(([a], (t.header.lookup a).getD (0, 0)), true)], ?_, ?_, ?_, by simp, ?_⟩
                    · have := Steps.cons (n := r.1.condPruned + b.2) (st := s) (st1 := r.1) (b := r.2) hv (.nil _)
                      rw [hr2] at this
                      exact this
                    · simp only; omega
                    · intro e he
                      simp only [List.map_cons, List.map_nil, List.mem_singleton] at he
                      subst he
                      exact hfirst
                    · intro hcp
                      have h0 : b.2 = 0 := by simp only at hcp; omega
                      have : seg a = [([a], (t.header.lookup a).getD (0, 0))] := by
                        simp only [seg]
                        rw [hcondEq h0, hemp]
                        simp
                      rw [this]
                      refine ⟨by simp, ?_⟩
                      intro e he
                      left
                      rw [List.mem_singleton.1 he]; simp
                  · have hb2 : (!(FPTree.condOf Selector.dictKey cfg.th b.1).isEmpty) = true := by simp [hemp]
                    simp only [hb2, if_true] at hh'
                    obtain ⟨us, i1, i2, i3, i4⟩ := ih _ _ _ _ hh' g'
                    have hRf : ∀ f ∈ us.map (·.1), ∀ x ∈ f.1, R x a := by
                      intro f hf x hx
                      obtain ⟨h1, h2, h3, h4, h5⟩ := i3.sound f hf
                      exact (hsound f.1 h1 h3).2.2 x hx
                    have hmap : (under [a] us).map (·.1) = (us.map (·.1)).map (fun e => (e.1 ++ [a], e.2)) := by
                      simp [under, Function.comp_def]
                    refine ⟨(([a], (t.header.lookup a).getD (0, 0)), true) :: under [a] us, ?_, ?_, ?_, ?_, ?_⟩
                    · have := Steps.cons (n := r.1.condPruned + b.2) (st := s) (st1 := r.1) (b := r.2) hv i1
                      rw [hr2] at this
                      have he : under alpha ((([a], (t.header.lookup a).getD (0, 0)), true) :: under [a] us) =
                          (((a :: alpha), (t.header.lookup a).getD (0, 0)), true) :: under (a :: alpha) us := by
                        rw [← under_under alpha a us]; rfl
                      rw [he]
                      exact this
                    · simp only at i2; omega
                    · intro e he
                      rw [List.map_cons, hmap] at he
                      rcases List.mem_cons.1 he with rfl | he
                      · exact hfirst
                      · obtain ⟨f, hf, rfl⟩ := List.mem_map.1 he
                        obtain ⟨h1, h2, h3, h4, h5⟩ := i3.sound f hf
                        obtain ⟨k1, ⟨r0, hr0, k2⟩, k3⟩ := hsound f.1 h1 h3
                        refine ⟨f.1, rfl, h2, k3, ⟨r0, hr0, fun x hx => k2 x (by simpa [or_comm] using hx)⟩, ?_, h5⟩
                        refine le_trans h4 ?_
                        rw [k1]
                        refine le_trans (wsum_sublist hsub _) ?_
                        rw [FPTree.horizontal_wsum g a k3]
                        apply le_of_eq
                        apply wsum_congr
                        intro e _
                        simp only [List.mem_cons, List.mem_append, List.not_mem_nil, or_false]
                        constructor <;> intro h x hx <;> exact h x hx.symm
                    · rw [List.map_cons, hmap, List.pairwise_cons]
                      refine ⟨?_, ?_⟩
                      · intro e he hh
                        obtain ⟨f, hf, rfl⟩ := List.mem_map.1 he
                        obtain ⟨h1, _⟩ := i3.sound f hf
                        obtain ⟨x, X', hxX⟩ := List.exists_cons_of_ne_nil h1
                        have hxf : x ∈ f.1 := by rw [hxX]; simp
                        have hxa := (hh x).2 (by simp [hxf])
                        simp at hxa
                        have := hRf f hf x hxf
                        rw [hxa] at this
                        exact g.asymm _ _ this this
                      · rw [List.pairwise_map]
                        apply List.Pairwise.imp_of_mem _ i3.distinct
                        intro e f he hf hef hh
                        apply hef
                        intro x
                        have hx := hh x
                        simp only [List.mem_append, List.mem_cons, List.not_mem_nil, or_false] at hx
                        have hne : ∀ w ∈ us.map (·.1), x ∈ w.1 → x ≠ a := by
                          intro w hw hxw hxa
                          have := hRf w hw x hxw
                          rw [hxa] at this
                          exact g.asymm _ _ this this
                        constructor
                        · intro h1
                          rcases hx.1 (Or.inl h1) with h2 | h2
                          · exact h2
                          · exact absurd h2 (hne e he h1)
                        · intro h1
                          rcases hx.2 (Or.inl h1) with h2 | h2
                          · exact h2
                          · exact absurd h2 (hne f hf h1)
                    · intro hcp
                      have h0 : b.2 = 0 := by simp only at i2; omega
                      obtain ⟨j1, j2⟩ := i4 (by simp only; omega)
                      have hseg : seg a = ([a], (t.header.lookup a).getD (0, 0)) ::
                          (FPTree.fpgrowth (cfg.orderStar TP FP) Selector.dictKey cfg.th fuel (FPTree.condOf Selector.dictKey cfg.th b.1) []).map
                            (fun e => (e.1 ++ [a], e.2)) := by
                        simp only [seg]
                        rw [hcondEq h0, hb2, FPTree.fpgrowth_append]
                        simp
                      rw [hseg]
                      refine ⟨?_, ?_⟩
                      · rw [List.map_cons, hmap]
                        exact (j1.map _).cons_cons _
                      · intro e he
                        rcases List.mem_cons.1 he with rfl | he
                        · left; simp
                        · obtain ⟨f, hf, rfl⟩ := List.mem_map.1 he
                          rcases j2 f hf with h1 | ⟨v, hv1, hv2⟩
                          · left
                            refine List.mem_cons_of_mem _ (List.mem_map.2 ⟨_, h1, rfl⟩)
                          · right
                            refine ⟨(v.1 ++ [a], v.2), List.mem_cons_of_mem _ (List.mem_map.2 ⟨_, hv1, rfl⟩), ?_⟩
                            intro x hx
                            simp only [List.mem_append] at hx ⊢
                            rcases hx with hx | hx
                            · exact Or.inl (hv2 x hx)
                            · exact Or.inr hx
        -- the loop
        have hloop : ∀ l : List Selector, l.Nodup → (∀ a ∈ l, a ∈ order) → ∀ s s', l.foldlM (fun st a => do
              let r ← cfg.visit target TP FP st (a :: alpha) ((t.header.lookup a).getD (0, 0))
              if r.2 then do
                let c ← cfg.condTreeStar TP FP (r.1.ks.headD 0) t a
                let st := { r.1 with condPruned := r.1.condPruned + c.2 }
                if !c.1.isEmpty then cfg.fpgrowthStar target TP FP fuel st c.1 (a :: alpha) else .ok st
              else .ok r.1) s = Except.ok s' →
            ∃ us, cfg.Steps target TP FP s (under alpha us) s' ∧ s.condPruned ≤ s'.condPruned ∧
              (∀ e ∈ us.map (·.1), ∃ a ∈ l, ∃ X, e.1 = X ++ [a] ∧ X.Nodup ∧ (∀ x ∈ X, R x a) ∧ (∃ r ∈ D, ∀ x ∈ e.1, x ∈ r.1) ∧
                e.2 ≤ FPTree.supp D e.1 ∧ cfg.th.ok e.2 = true) ∧
              (us.map (·.1)).Pairwise (fun e f => ¬ ∀ x, x ∈ e.1 ↔ x ∈ f.1) ∧
              (s'.condPruned = s.condPruned → Accounted us (l.flatMap seg)) := by
          intro l
          induction l with
          | nil =>
            intro _ _ s s' hh
            simp only [List.foldlM_nil] at hh
            cases hh
            exact ⟨[], .nil _, le_refl _, by simp, by simp, fun _ => ⟨by simp, by simp⟩⟩
          | cons a l ihl =>
            intro hn hl s s' hh
            rw [List.foldlM_cons] at hh
            rw [List.nodup_cons] at hn
            cases hb : (do
              let r ← cfg.visit target TP FP s (a :: alpha) ((t.header.lookup a).getD (0, 0))
              if r.2 then do
                let c ← cfg.condTreeStar TP FP (r.1.ks.headD 0) t a
                let st := { r.1 with condPruned := r.1.condPruned + c.2 }
                if !c.1.isEmpty then cfg.fpgrowthStar target TP FP fuel st c.1 (a :: alpha) else .ok st
              else .ok r.1 : Except PyErr StarState) with
            | error e => rw [hb] at hh; cases hh
            | ok s1 =>
              rw [hb] at hh
              obtain ⟨us, a1, a2, a3, a4, a5⟩ := hbody a (hl a (by simp)) s s1 hb
              obtain ⟨ws, b1, b2, b3, b4, b5⟩ := ihl hn.2 (fun x hx => hl x (by simp [hx])) s1 s' hh
              refine ⟨us ++ ws, by rw [under_append]; exact a1.append b1, le_trans a2 b2, ?_, ?_, ?_⟩
              · intro e he
                rw [List.map_append] at he
                rcases List.mem_append.1 he with he | he
                · exact ⟨a, by simp, a3 e he⟩
                · obtain ⟨x, hx, hh⟩ := b3 e he
                  exact ⟨x, by simp [hx], hh⟩
              · rw [List.map_append, List.pairwise_append]
                refine ⟨a4, b4, ?_⟩
                intro e he f hf hef
                obtain ⟨X, h1, _, h3, _⟩ := a3 e he
                obtain ⟨b, hbl, Y, k1, _, k3, _⟩ := b3 f hf
                have hab : a ≠ b := fun hh => hn.1 (hh ▸ hbl)
                have haf : a ∈ Y := by
                  have := (hef a).1 (by rw [h1]; simp)
                  rw [k1] at this
                  simp only [List.mem_append, List.mem_cons, List.not_mem_nil, or_false] at this
                  rcases this with h' | h'
                  · exact h'
                  · exact absurd h' hab
                have hbe : b ∈ X := by
                  have := (hef b).2 (by rw [k1]; simp)
                  rw [h1] at this
                  simp only [List.mem_append, List.mem_cons, List.not_mem_nil, or_false] at this
                  rcases this with h' | h'
                  · exact h'
                  · exact absurd h'.symm hab
                exact g.asymm _ _ (h3 b hbe) (k3 a haf)
              · intro hcp
                obtain ⟨c1, c2⟩ := a5 (by omega)
                obtain ⟨d1, d2⟩ := b5 (by omega)
                rw [List.flatMap_cons]
                refine ⟨by rw [List.map_append]; exact c1.append d1, ?_⟩
                intro e he
                rcases List.mem_append.1 he with he | he
                · rcases c2 e he with h1 | ⟨v, h1, h2⟩
                  · left; simp [h1]
                  · right; exact ⟨v, by simp [h1], h2⟩
                · rcases d2 e he with h1 | ⟨v, h1, h2⟩
                  · left; simp [h1]
                  · right; exact ⟨v, by simp [h1], h2⟩
        obtain ⟨us, a1, a2, a3, a4, a5⟩ := hloop order hon (fun a ha => ha) st st' h
        refine ⟨us, a1, a2, ⟨?_, a4⟩, a5⟩
        intro e he
        obtain ⟨a, ha, X, h1, h2, h3, h4, h5, h6⟩ := a3 e he
        refine ⟨by rw [h1]; simp, ?_, h4, h5, h6⟩
        rw [h1, List.nodup_append]
        refine ⟨h2, by simp, ?_⟩
        intro x hx y hy hxy
        simp at hy
        have := h3 x hx
        rw [hxy, hy] at this
        exact g.asymm _ _ this this

end SDMapStarConfig
end Verif

import Verif.Lemmas.Shuffle
import Verif.Props.SDIGA
/-! Lemmas for C94: SDIGA on rows in another order. -/
namespace Verif
open Spec
namespace SDIGA

/-- a row without its index label -/
def body (r : ERow) : List Nat × Val := (r.genes, r.tgt)

/-- the same rows up to the order and the labels -/
def SameBodies (a b : List ERow) : Prop := (a.map body).Perm (b.map body)

theorem bodies_count {a b : List ERow} (h : SameBodies a b) (f : List Nat × Val → Bool) : a.countP (fun r => f (body r)) = b.countP (fun r => f (body r)) := by
  have := h.countP_eq f
  rw [List.countP_map, List.countP_map] at this
  exact this

theorem bodies_filter {a b : List ERow} (h : SameBodies a b) (f : List Nat × Val → Bool) : SameBodies (a.filter (fun r => f (body r))) (b.filter (fun r => f (body r))) := by
  have := h.filter f
  rw [List.filter_map, List.filter_map] at this
  exact this

theorem bodies_length {a b : List ERow} (h : SameBodies a b) : a.length = b.length := by simpa using h.length_eq

theorem bodies_with {a b : List ERow} (h : SameBodies a b) (c : Chrom) : SameBodies (filterWith c a) (filterWith c b) :=
  bodies_filter h (fun x => (c.zip x.1).all (fun e => e.1 == 0 || e.2 == e.1))

theorem bodies_without {a b : List ERow} (h : SameBodies a b) (c : Chrom) : SameBodies (filterWithout c a) (filterWithout c b) :=
  bodies_filter h (fun x => !(c.zip x.1).all (fun e => e.1 == 0 || e.2 == e.1))

theorem bodies_target {a b : List ERow} (h : SameBodies a b) (t : Str) : countTarget t a = countTarget t b :=
  bodies_count h (fun x => x.2.eq (.str t))

theorem bodies_tpFp {a b : List ERow} (h : SameBodies a b) (c : Chrom) (t : Str) : tpFp c a t = tpFp c b t := by
  unfold tpFp
  simp only [bodies_target (bodies_with h c), bodies_length (bodies_with h c)]

/-- the same state up to the order and the labels of the rows not yet covered -/
structure SameState (a b : SDIGAState) : Prop where
  selected : a.selected = b.selected
  unselected : a.unselected = b.unselected
  file : a.file = b.file
  cases : a.cases = b.cases
  unchecked : SameBodies a.unchecked b.unchecked
  TP : a.TP = b.TP
  FP : a.FP = b.FP
  TPu : a.TPu = b.TPu
  FPu : a.FPu = b.FPu

section
variable {cfg : SDIGAConfig} {a b : SDIGAState} {rows rows' : List ERow} {t : Str}

theorem same_fitness (h : SameState a b) (hr : SameBodies rows rows') : fitness cfg a rows t = fitness cfg b rows' t := by
  funext c
  unfold fitness
  rw [bodies_tpFp h.unchecked, bodies_tpFp hr, h.TPu, h.FPu]

theorem same_measure (h : SameState a b) (hr : SameBodies rows rows') : measure a rows t = measure b rows' t := by
  funext c
  unfold measure
  rw [bodies_tpFp hr, h.TP, h.FP]

theorem same_search (h : SameState a b) (hr : SameBodies rows rows') (n : Nat) (m : Metrics) : searchLoop a rows t n m = searchLoop b rows' t n m := by
  have hd : dropStep a rows t = dropStep b rows' t := by
    funext cur acc i
    unfold dropStep
    rw [same_measure h hr]
  induction n generalizing m with
  | zero => rfl
  | succ n ih =>
    unfold searchLoop
    rw [hd]
    simp only [ih]

theorem same_local (h : SameState a b) (hr : SameBodies rows rows') (c : Chrom) : localSearch cfg a rows t c = localSearch cfg b rows' t c := by
  unfold localSearch
  simp only [same_measure h hr, same_search h hr, same_fitness h hr]

theorem same_evolve (h : SameState a b) (hr : SameBodies rows rows') (dict : List (Str × List Val)) (o : SDIGAChoice) : evolve cfg a rows t dict o = evolve cfg b rows' t dict o := by
  have hg : generation cfg a rows t = generation cfg b rows' t := by
    funext pop g
    unfold generation
    simp only [same_fitness h hr]
  unfold evolve evaluate
  simp only [same_fitness h hr, hg]

/-- the outcomes agree -/
def SameTurn : Except PyErr (SDIGAState × Bool) → Except PyErr (SDIGAState × Bool) → Prop
  | .error e, .error e' => e = e'
  | .ok r, .ok r' => SameState r.1 r'.1 ∧ r.2 = r'.2
  | _, _ => False

theorem same_turn (h : SameState a b) (hr : SameBodies rows rows') (target : Str × Str) (dict : List (Str × List Val)) (o : SDIGAChoice) :
    SameTurn (turn cfg rows target dict o a) (turn cfg rows' target dict o b) := by
  unfold turn
  simp only [bind, Except.bind, pure, Except.pure]
  rw [same_evolve h hr]
  cases evolve cfg b rows' target.2 dict o with
  | error e => exact rfl
  | ok best =>
    simp only
    have h1 : SameState { a with unselected := a.unselected + 2 * cfg.maxGen + (cfg.popSize - 1) } { b with unselected := b.unselected + 2 * cfg.maxGen + (cfg.popSize - 1) } :=
      ⟨h.selected, by simp only [h.unselected], h.file, h.cases, h.unchecked, h.TP, h.FP, h.TPu, h.FPu⟩
    rw [same_local h1 hr]
    cases localSearch cfg { b with unselected := b.unselected + 2 * cfg.maxGen + (cfg.popSize - 1) } rows' target.2 best.genes with
    | error e => exact rfl
    | ok r =>
      obtain ⟨chrom, conf, fit, tp, fp⟩ := r
      simp only
      cases decode (chromDict dict) chrom with
      | error e => exact rfl
      | ok last =>
        simp only [h.cases]
        split
        · exact ⟨⟨h.selected, by simp only [h.unselected], h.file, rfl, h.unchecked, h.TP, h.FP, h.TPu, h.FPu⟩, rfl⟩
        · split
          · exact ⟨⟨h.selected, by simp only [h.unselected], h.file, rfl, h.unchecked, h.TP, h.FP, h.TPu, h.FPu⟩, rfl⟩
          · have hw := bodies_without h.unchecked chrom
            refine ⟨⟨by simp only [h.selected], by simp only [h.unselected], ?_, rfl, hw, h.TP, h.FP, bodies_target hw _, ?_⟩, rfl⟩
            · simp only [h.file, h.TP, h.FP, h.TPu, h.FPu, bodies_tpFp h.unchecked]
            · simp only [bodies_target hw, bodies_length hw]

/-- the outcomes of the loop agree -/
def SameEnd : Option (Except PyErr SDIGAState) → Option (Except PyErr SDIGAState) → Prop
  | none, none => True
  | some (.error e), some (.error e') => e = e'
  | some (.ok r), some (.ok r') => SameState r r'
  | _, _ => False

theorem same_loop (hr : SameBodies rows rows') (target : Str × Str) (dict : List (Str × List Val)) (o : Nat → SDIGAChoice) (n k : Nat) (a b : SDIGAState) (h : SameState a b) :
    SameEnd (loop cfg rows target dict o n k a) (loop cfg rows' target dict o n k b) := by
  induction n generalizing k a b with
  | zero => exact trivial
  | succ n ih =>
    have ht := same_turn (cfg := cfg) h hr target dict (o k)
    unfold loop
    cases h1 : turn cfg rows target dict (o k) a with
    | error e =>
      rw [h1] at ht
      cases h2 : turn cfg rows' target dict (o k) b with
      | error e' => rw [h2] at ht; exact ht
      | ok r => rw [h2] at ht; exact ht.elim
    | ok r =>
      rw [h1] at ht
      cases h2 : turn cfg rows' target dict (o k) b with
      | error e' => rw [h2] at ht; exact ht.elim
      | ok r' =>
        rw [h2] at ht
        obtain ⟨s, g⟩ := r
        obtain ⟨s', g'⟩ := r'
        obtain ⟨h3, h4⟩ := ht
        simp only at h3 h4
        subst h4
        cases g with
        | true => exact ih _ _ _ h3
        | false => exact h3
end

/-! ### the encoding -/
variable {df df' : Frame} {π : List Nat} {target : Str × Str}

theorem aligned (h : Shuffled df df' π) (hf : NominalFrame df target) (hn : df'.cols.map (·.1) = df.cols.map (·.1)) :
    List.Forall₂ (fun c c' => c'.1 = c.1 ∧ c ∈ df.cols ∧ c'.2.map some = π.map (fun i : Nat => c.2[i]?)) df.cols df'.cols := by
  have hf' := shuffle_nominal h hf
  have hl : df.cols.length = df'.cols.length := by simpa using (congrArg List.length hn).symm
  rw [List.forall₂_iff_get]
  refine ⟨hl, fun k h1 h2 => ?_⟩
  have e : df'.cols[k].1 = df.cols[k].1 := by
    have := congrArg (fun l => l[k]?) hn
    simpa [h1, h2] using this
  refine ⟨e, List.getElem_mem _, ?_⟩
  have hc : df.cols.lookup df.cols[k].1 = some df.cols[k].2 := lookup_of_mem_nodup hf.names (List.getElem_mem h1)
  obtain ⟨col', a1, a2⟩ := h.cells _ _ hc
  have hc' : df'.cols.lookup df'.cols[k].1 = some df'.cols[k].2 := lookup_of_mem_nodup hf'.names (List.getElem_mem h2)
  rw [e, a1] at hc'
  cases hc'
  exact a2

theorem aligned_other (h : Shuffled df df' π) (hf : NominalFrame df target) (hn : df'.cols.map (·.1) = df.cols.map (·.1)) (t : Str) :
    List.Forall₂ (fun c c' => c'.1 = c.1 ∧ c ∈ df.cols ∧ c'.2.map some = π.map (fun i : Nat => c.2[i]?)) (otherCols df t) (otherCols df' t) := by
  have := aligned h hf hn
  unfold otherCols
  generalize df.cols = L at this ⊢
  revert this
  suffices ∀ (P : Str × List Val → Prop) (L L' : List (Str × List Val)), List.Forall₂ (fun c c' => c'.1 = c.1 ∧ P c ∧ c'.2.map some = π.map (fun i : Nat => c.2[i]?)) L L' →
      List.Forall₂ (fun c c' => c'.1 = c.1 ∧ P c ∧ c'.2.map some = π.map (fun i : Nat => c.2[i]?)) (L.filter (fun c => c.1 ≠ t)) (L'.filter (fun c => c.1 ≠ t)) from
    fun hh => this (· ∈ L) _ _ hh
  intro P L L' hh
  induction hh with
  | nil => exact .nil
  | cons hab _ ih =>
    rw [List.filter_cons, List.filter_cons, hab.1]
    split
    · exact .cons hab ih
    · exact ih

theorem keys_sorted {col : List Val} (ht : ∀ v ∈ col, ∃ s, v = .str s) : ∃ vals : List Str, groupKeys col = vals.map Val.str ∧ vals.Pairwise (· < ·) := by
  obtain ⟨vs, hvs⟩ : ∃ vs : List Str, col.dedup = vs.map Val.str := by
    have : ∀ m : List Val, (∀ v ∈ m, ∃ s, v = .str s) → ∃ vs : List Str, m = vs.map Val.str := by
      intro m hm
      induction m with
      | nil => exact ⟨[], rfl⟩
      | cons v m ih =>
        obtain ⟨s, rfl⟩ := hm v (by simp)
        obtain ⟨vs, rfl⟩ := ih (fun v hv => hm v (by simp [hv]))
        exact ⟨s :: vs, rfl⟩
    exact this _ (fun v hv => ht v (List.mem_dedup.1 hv))
  have hle : ∀ a b : Str, (strLt a b || a == b) = true ↔ a ≤ b := by
    intro a b
    rw [Bool.or_eq_true, strLt_iff, beq_iff_eq, le_iff_lt_or_eq]
  have hg : groupKeys col = (stableSort (fun a b => strLt a b || a == b) vs).map Val.str := by
    unfold groupKeys; rw [hvs, stableSort_str]
  refine ⟨_, hg, ?_⟩
  have hp := pairwise_stableSort (le := fun a b : Str => strLt a b || a == b)
    (fun a b c h1 h2 => (hle _ _).2 (le_trans ((hle _ _).1 h1) ((hle _ _).1 h2)))
    (fun a b => by rw [Bool.or_eq_true, hle, hle]; exact le_total a b) vs
  have hn := groupKeys_nodup col
  rw [hg] at hn
  exact (hp.and (List.Nodup.of_map _ hn)).imp (fun {a b} h => lt_of_le_of_ne ((hle a b).1 h.1) h.2)

theorem keys_eq {col col' : List Val} (ht : ∀ v ∈ col, ∃ s, v = .str s) (hm : ∀ v, v ∈ col' ↔ v ∈ col) : groupKeys col' = groupKeys col := by
  obtain ⟨a, a1, a2⟩ := keys_sorted ht
  obtain ⟨b, b1, b2⟩ := keys_sorted (col := col') (fun v hv => ht v ((hm v).1 hv))
  rw [a1, b1]
  congr 1
  refine List.Perm.eq_of_pairwise (le := (· < ·)) (fun x y _ _ h1 h2 => absurd (lt_trans h1 h2) (lt_irrefl _)) b2 a2 ?_
  refine (List.perm_ext_iff_of_nodup (b2.imp (fun h => ne_of_lt h)) (a2.imp (fun h => ne_of_lt h))).2 (fun s => ?_)
  have h1 : ∀ (l : List Str), Val.str s ∈ l.map Val.str ↔ s ∈ l := fun l => by simp
  rw [← h1, ← h1, ← a1, ← b1, mem_groupKeys, mem_groupKeys, hm]

theorem cols_mem (hw : WF df) {c c' : Str × List Val} (hc : c ∈ df.cols) (hp : π.Perm (List.range df.nrows)) (h : c'.2.map some = π.map (fun i : Nat => c.2[i]?)) : ∀ v, v ∈ c'.2 ↔ v ∈ c.2 := by
  intro v
  have hl : c.2.length = df.nrows := hw c hc
  have h1 : v ∈ c'.2 ↔ some v ∈ c'.2.map some := by simp
  rw [h1, h, List.mem_map]
  constructor
  · rintro ⟨i, _, hi⟩; exact List.mem_of_getElem? hi
  · intro hv
    obtain ⟨i, hi, e⟩ := List.getElem_of_mem hv
    exact ⟨i, hp.mem_iff.2 (List.mem_range.2 (by omega)), by rw [List.getElem?_eq_getElem hi, e]⟩

theorem forall₂_map {α β γ : Type} {R : α → β → Prop} {f : α → γ} {g : β → γ} {l : List α} {l' : List β} (h : List.Forall₂ R l l') (hR : ∀ a b, R a b → g b = f a) : l'.map g = l.map f := by
  induction h with
  | nil => rfl
  | cons hab _ ih => rw [List.map_cons, List.map_cons, hR _ _ hab, ih]

theorem dict_eq (h : Shuffled df df' π) (hf : NominalFrame df target) (hn : df'.cols.map (·.1) = df.cols.map (·.1)) (t : Str) : encodeDict df' t = encodeDict df t := by
  unfold encodeDict
  refine forall₂_map (aligned_other h hf hn t) (fun c c' hc => ?_)
  rw [hc.1, keys_eq (fun v hv => hf.texts c hc.2.1 v hv) (cols_mem hf.wf hc.2.1 h.perm hc.2.2)]

theorem getD_at {col col' : List Val} (h : col'.map some = π.map (fun i : Nat => col[i]?)) {i j : Nat} (hj : π[i]? = some j) (d : Val) : col'[i]?.getD d = col[j]?.getD d := by
  have := congrArg (fun l => l[i]?) h
  simp only [List.getElem?_map, hj, Option.map_some] at this
  cases hx : col'[i]? with
  | none => rw [hx] at this; cases this
  | some v =>
    rw [hx] at this
    simp only [Option.map_some, Option.some.injEq] at this
    rw [← this]

theorem rows_same (h : Shuffled df df' π) (hf : NominalFrame df target) (hn : df'.cols.map (·.1) = df.cols.map (·.1)) (t : Str) {tcol tcol' : List Val}
    (ht : tcol'.map some = π.map (fun i : Nat => tcol[i]?)) : SameBodies (encodeRows df' t tcol') (encodeRows df t tcol) := by
  unfold SameBodies encodeRows
  rw [List.map_map, List.map_map]
  have hl : π.length = df.nrows := by rw [h.perm.length_eq, List.length_range]
  set F : Nat → List Nat × Val := fun i => ((otherCols df t).map (fun c => code (groupKeys c.2) (c.2[i]?.getD (.str []))), tcol[i]?.getD (.str [])) with hF
  have e1 : (List.range df.nrows).map (body ∘ fun i => (⟨i, (otherCols df t).map (fun c => code (groupKeys c.2) (c.2[i]?.getD (.str []))), tcol[i]?.getD (.str [])⟩ : ERow)) =
      (List.range df.nrows).map F := rfl
  rw [e1]
  have e2 : (List.range df'.nrows).map (body ∘ fun i => (⟨i, (otherCols df' t).map (fun c => code (groupKeys c.2) (c.2[i]?.getD (.str []))), tcol'[i]?.getD (.str [])⟩ : ERow)) = π.map F := by
    rw [h.rows]
    apply List.ext_getElem (by simp [hl])
    intro i h1 h2
    have hi : i < π.length := by simpa using h2
    have hj : π[i]? = some π[i] := List.getElem?_eq_getElem hi
    simp only [List.getElem_map, List.getElem_range, Function.comp_apply, body, hF, Prod.mk.injEq]
    refine ⟨forall₂_map (aligned_other h hf hn t) (fun c c' hc => ?_), getD_at ht hj _⟩
    rw [keys_eq (fun v hv => hf.texts c hc.2.1 v hv) (cols_mem hf.wf hc.2.1 h.perm hc.2.2), getD_at hc.2.2 hj]
  rw [e2]
  exact h.perm.map F

theorem fit_same (cfg : SDIGAConfig) (h : Shuffled df df' π) (hf : NominalFrame df target) (hn : df'.cols.map (·.1) = df.cols.map (·.1)) (o : Nat → SDIGAChoice) (n : Nat) (st : SDIGAState) :
    SameEnd (SDIGA.fit cfg o n st df' target) (SDIGA.fit cfg o n st df target) := by
  have nom : ∀ d : Frame, NominalFrame d target → d.nominal = true := fun d hd => by
    unfold Frame.nominal
    rw [List.all_eq_true]
    intro c hc
    rw [List.all_eq_true]
    intro v hv
    obtain ⟨s, rfl⟩ := hd.texts c hc v hv
    rfl
  obtain ⟨tcol, hl⟩ := lookup_of_name hf.target
  obtain ⟨tcol', hl', ht⟩ := h.cells _ _ hl
  have hm := cols_mem (c := (target.1, tcol)) (c' := (target.1, tcol')) hf.wf (mem_of_lookup hl) h.perm ht
  unfold SDIGA.fit Frame.col
  rw [nom df hf, nom df' (shuffle_nominal h hf), hl, hl']
  simp only [Bool.not_true, Bool.false_eq_true, if_false]
  have hany : tcol'.any (fun v => v.eq (.str target.2)) = tcol.any (fun v => v.eq (.str target.2)) := by
    rw [Bool.eq_iff_iff, List.any_eq_true, List.any_eq_true]
    exact ⟨fun ⟨v, a, b⟩ => ⟨v, (hm v).1 a, b⟩, fun ⟨v, a, b⟩ => ⟨v, (hm v).2 a, b⟩⟩
  have hcnt : tcol'.countP (fun v => v.eq (.str target.2)) = tcol.countP (fun v => v.eq (.str target.2)) := by
    have hp : tcol'.Perm tcol := by
      have hw : tcol.length = df.nrows := hf.wf _ (mem_of_lookup hl)
      have e : tcol.map some = (List.range df.nrows).map (fun i : Nat => tcol[i]?) := by
        apply List.ext_getElem (by simp [hw])
        intro i h1 h2
        have : i < tcol.length := by simpa using h1
        simp [this]
      have : (tcol'.map some).Perm (tcol.map some) := by rw [ht, e]; exact h.perm.map _
      exact (List.map_perm_map_iff (Option.some_injective _)).1 this
    exact hp.countP_eq _
  rw [hany, hcnt, h.rows, dict_eq h hf hn]
  split
  · exact rfl
  · refine same_loop (rows_same h hf hn _ ht) _ _ _ _ _ _ _ ⟨rfl, rfl, rfl, rfl, rows_same h hf hn _ ht, rfl, rfl, rfl, rfl⟩

end SDIGA
end Verif

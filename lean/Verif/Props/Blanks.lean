import Verif.Props.QFinder
import Verif.Props.Reading
/-! C102: QFinder reads its own patterns back from their texts, so it fails when a column name or a value cannot be read back. -/
namespace Verif.QFinder
open Spec BSD
open IDSD (covBits)

variable {cfg : QFConfig} {df : Frame} {target : Str × Str}

/-! ### texts that cannot be read back -/

theorem mapM_fails {α β : Type} {f : α → Except PyErr β} {l : List α} {a : α} {e : PyErr} (ha : a ∈ l) (hf : f a = .error e) : ∃ e', l.mapM f = .error e' := by
  induction l with
  | nil => simp at ha
  | cons b l ih =>
    rw [mapM_cons_eq]
    cases hb : f b with
    | error e' => exact ⟨e', rfl⟩
    | ok y =>
      rcases List.mem_cons.1 ha with rfl | ha
      · rw [hf] at hb; cases hb
      · obtain ⟨e', h⟩ := ih ha
        rw [h]
        exact ⟨e', rfl⟩

theorem setCol_keys (d : Dict Bits) (k : Str) (v : Bits) : (∀ x ∈ d.map (·.1), x ∈ (setCol d k v).map (·.1)) ∧ k ∈ (setCol d k v).map (·.1) := by
  unfold setCol
  split
  · rename_i h
    have e : (d.map (fun e => if e.1 = k then (e.1, v) else e)).map (·.1) = d.map (·.1) := by
      rw [List.map_map]
      apply List.map_congr_left
      intro e _
      simp only [Function.comp]
      split <;> rfl
    rw [e]
    exact ⟨fun x hx => hx, by simpa using h⟩
  · simp only [List.map_append, List.map_cons, List.map_nil, List.mem_append, List.mem_singleton, or_true, and_true]
    exact fun x hx => .inl hx

theorem bitsetLoop_keys {tname : Str} (P : List Pattern) : ∀ (d d' : Dict Bits), bitsetLoop df tname P d = .ok d' →
    (∀ x ∈ d.map (·.1), x ∈ d'.map (·.1)) ∧ ∀ p ∈ P, ∀ b, entry df tname p = .ok b → b.ones ≠ 0 → p.str ∈ d'.map (·.1) := by
  induction P with
  | nil => intro d d' h; cases h; exact ⟨fun x hx => hx, by simp⟩
  | cons p P ih =>
    intro d d' h
    rw [bitsetLoop] at h
    cases hb : entry df tname p with
    | error e => rw [hb] at h; cases h
    | ok b =>
      rw [hb] at h
      obtain ⟨h1, h2⟩ := ih _ _ h
      constructor
      · intro x hx
        apply h1
        split
        · exact (setCol_keys d p.str b).1 x hx
        · exact hx
      · intro q hq c hc ho
        rcases List.mem_cons.1 hq with rfl | hq
        · rw [hb] at hc
          cases hc
          apply h1
          rw [if_pos ho]
          exact (setCol_keys d q.str b).2
        · exact h2 q hq c hc ho

/-- a candidate that occurs and whose text cannot be read back -/
theorem fit_unreadable (hf : NominalFrame df target) {p : Pattern} (hp : p ∈ candidates cfg df target.1) (ho : OccursIn df p.sels) {e : PyErr}
    (he : Pattern.generateFromStr p.str = .error e) (st : QFState) : ∃ e', fit cfg st df target = .error e' := by
  have hin := candidates_cols hf hp
  have hen : entry df target.1 p = .ok (covBits df p.sels) := entry_eq hf hin.1 hin.2
  unfold fit
  split
  · exact ⟨_, rfl⟩
  · split
    · exact ⟨_, rfl⟩
    · split
      · exact ⟨_, rfl⟩
      · rename_i bits hbits
        have hk := (bitsetLoop_keys _ _ _ hbits).2 p hp _ hen ((ones_ne_zero _).2 ho)
        obtain ⟨e', h⟩ := mapM_fails hk he
        rw [h]
        exact ⟨e', rfl⟩

/-- the simple pattern of a kept value -/
theorem simple_candidate (hf : NominalFrame df target) {c : Str × List Val} (hc : c ∈ df.cols) (hct : c.1 ≠ target.1) {v : Val} (hv : v ∈ keptVals cfg.ties cfg.cats c.2) :
    Pattern.new [⟨c.1, .equal, v⟩] ∈ candidates cfg df target.1 ∧ OccursIn df (Pattern.new [⟨c.1, .equal, v⟩]).sels := by
  obtain ⟨h1, h2⟩ := (simples_occurs (ties := cfg.ties) hf cfg.cats ⟨c.1, .equal, v⟩).2 ⟨c, hc, hct, v, hv, rfl⟩
  have e : (Pattern.new [⟨c.1, .equal, v⟩]).sels = [⟨c.1, .equal, v⟩] := rfl
  refine ⟨?_, by rw [e]; exact h2⟩
  unfold candidates
  exact List.mem_append_left _ (List.mem_map_of_mem (f := fun s => Pattern.new [s]) h1)

theorem simple_str (s : Selector) : (Pattern.new [s]).str = '[' :: (s.str ++ c!"]") := by
  obtain ⟨a, o, v⟩ := s
  rfl

/-- the text of a simple pattern is read back by reading its pieces -/
theorem generate_fails {s : Selector} (hne : s.str ≠ []) {h : Str} (hh : h ∈ splitOn c!", " s.str) {e : PyErr} (he : Selector.generateFromStr h = .error e) :
    ∃ e', Pattern.generateFromStr (Pattern.new [s]).str = .error e' := by
  rw [simple_str]
  unfold Pattern.generateFromStr
  rw [if_neg]
  · simp only [List.tail_cons, List.dropLast_concat]
    obtain ⟨e', h⟩ := mapM_fails hh he
    rw [h]
    exact ⟨e', rfl⟩
  · intro h
    simp only [List.cons.injEq, true_and] at h
    have := congrArg List.length h
    simp only [List.length_append, List.length_singleton] at this
    exact hne (List.length_eq_zero_iff.1 (by omega))

/-! ### names -/

theorem splitOnAux_head (sep : Str) (fuel : Nat) : ∀ (s acc : Str), ∃ h t, splitOnAux sep fuel s acc = h :: t ∧ ∃ r, acc.reverse ++ s = h ++ r := by
  induction fuel with
  | zero => intro s acc; exact ⟨_, _, rfl, [], by simp⟩
  | succ fuel ih =>
    intro s acc
    cases s with
    | nil => exact ⟨_, _, rfl, [], rfl⟩
    | cons c cs =>
      rw [splitOnAux]
      cases dropPrefix? sep (c :: cs) with
      | some rest => exact ⟨_, _, rfl, c :: cs, rfl⟩
      | none =>
        obtain ⟨h, t, h1, r, h2⟩ := ih cs (c :: acc)
        exact ⟨h, t, h1, r, by rw [← h2]; simp⟩

theorem blank_inj {a b r t : Str} (ha : ' ' ∉ a) (hb : ' ' ∉ b) (h : a ++ ' ' :: r = b ++ ' ' :: t) : a = b ∧ r = t := by
  induction a generalizing b with
  | nil =>
    cases b with
    | nil => simpa using h
    | cons c b => simp only [List.nil_append, List.cons_append, List.cons.injEq] at h; exact absurd (by rw [← h.1]; simp) hb
  | cons c a ih =>
    cases b with
    | nil => simp only [List.nil_append, List.cons_append, List.cons.injEq] at h; exact absurd (by rw [h.1]; simp) ha
    | cons d b =>
      simp only [List.cons_append, List.cons.injEq] at h
      obtain ⟨h1, h2⟩ := ih (fun h => ha (by simp [h])) (fun h => hb (by simp [h])) h.2
      exact ⟨by rw [h.1, h1], h2⟩

theorem op_no_blank (op : Op) : ' ' ∉ op.str := by cases op <;> decide

theorem nlargest_ne {ties : TieOrder} {cats : Int} {col : List Val} (hc : cats = -1 ∨ 2 ≤ cats) (hne : col ≠ []) : ∃ v, v ∈ keptVals ties cats col := by
  unfold keptVals
  have hu : pyUnique col ≠ [] := by
    obtain ⟨v, hv⟩ := List.exists_mem_of_ne_nil _ hne
    exact List.ne_nil_of_mem ((mem_pyUnique col v).2 hv)
  split
  · exact List.exists_mem_of_ne_nil _ hu
  · rename_i h
    rcases hc with hc | hc
    · exact absurd (.inr hc) h
    · have := (nlargest_spec (ties := ties) (cats - 1).toNat col).2.2.1
      apply List.exists_mem_of_length_pos
      rw [this]
      have := List.length_pos_iff.2 hu
      omega

/-- C102: if the second word of the name of a column other than the target is not the text of an operator (`blood pressure`), then `fit` raises on every nominal data set with
that column, whatever its values. (The number of values per column must not be limited to one: with `cats = 1` such a column may have no pattern.) -/
theorem C102_names (hf : NominalFrame df target) (hn : 0 < df.nrows) {c : Str × List Val} (hc : c ∈ df.cols) (hct : c.1 ≠ target.1)
    {first second rest : Str} (hname : c.1 = first ++ c!" " ++ second ++ rest) (h1 : ' ' ∉ first) (h2 : ' ' ∉ second) (h3 : rest = [] ∨ rest.head? = some ' ')
    (hop : ∀ op : Op, second ≠ op.str) (hcats : cfg.cats = -1 ∨ 2 ≤ cfg.cats) (st : QFState) : ∃ e, fit cfg st df target = .error e := by
  have hne : c.2 ≠ [] := by
    intro h
    have := hf.wf c hc
    rw [h] at this
    simp only [List.length_nil] at this
    omega
  obtain ⟨v, hv⟩ := nlargest_ne (ties := cfg.ties) hcats hne
  obtain ⟨hp, ho⟩ := simple_candidate (cfg := cfg) hf hc hct hv
  set s : Selector := ⟨c.1, .equal, v⟩ with hs
  have hstr : s.str = c.1 ++ c!" = " ++ Selector.valText v := by simp [Selector.str, hs, Op.str]
  obtain ⟨h, t, hh, r, hr⟩ := splitOnAux_head c!", " (s.str.length + 1) s.str []
  have hmem : h ∈ splitOn c!", " s.str := by unfold splitOn; rw [hh]; simp
  have hread : ∃ e, Selector.generateFromStr h = .error e := by
    cases hg : Selector.generateFromStr h with
    | error e => exact ⟨e, rfl⟩
    | ok x =>
      exfalso
      obtain ⟨a, op, w⟩ := x
      obtain ⟨ha, _, t', _, _, hx⟩ := (C71_read h a op w).1 hg
      simp only [List.reverse_nil, List.nil_append] at hr
      rw [hstr, hname, hx] at hr
      have hr' : first ++ ' ' :: (second ++ (rest ++ ' ' :: ('=' :: ' ' :: Selector.valText v))) = a ++ ' ' :: (op.str ++ ' ' :: (t' ++ r)) := by
        simpa using hr
      obtain ⟨_, hr'⟩ := blank_inj h1 ha hr'
      rcases h3 with rfl | h3
      · exact hop op (blank_inj h2 (op_no_blank op) (by simpa using hr')).1
      · obtain ⟨rest', rfl⟩ : ∃ r', rest = ' ' :: r' := by
          cases rest with
          | nil => cases h3
          | cons x l => simp only [List.head?_cons, Option.some.injEq] at h3; exact ⟨l, by rw [h3]⟩
        exact hop op (blank_inj h2 (op_no_blank op) (by simpa using hr')).1
  obtain ⟨e, he⟩ := hread
  obtain ⟨e', he'⟩ := generate_fails (s := s) (by rw [hstr]; simp) hmem he
  exact fit_unreadable hf hp ho he' st

/-! ### values -/

theorem splitOnAux_last {z : Str} (hz : ' ' ∉ z) (n : Nat) : ∀ (y acc : Str) (fuel : Nat), y.length ≤ n → (y ++ c!", " ++ z).length < fuel →
    z ∈ splitOnAux c!", " fuel (y ++ c!", " ++ z) acc := by
  have hno : ¬ Occurs c!", " z := by
    rintro ⟨u, w, rfl⟩
    exact hz (by simp)
  induction n with
  | zero =>
    intro y acc fuel hy hfuel
    obtain rfl := List.length_eq_zero_iff.1 (Nat.le_zero.1 hy)
    cases fuel with
    | zero => simp at hfuel
    | succ fuel =>
      show z ∈ acc.reverse :: splitOnAux c!", " fuel z []
      rw [splitOnAux_none _ _ _ _ hno]
      simp
  | succ n ih =>
    intro y acc fuel hy hfuel
    cases y with
    | nil => exact ih [] acc fuel (by simp) hfuel
    | cons c y =>
      cases fuel with
      | zero => simp at hfuel
      | succ fuel =>
        simp only [List.cons_append]
        rw [splitOnAux]
        cases hd : dropPrefix? c!", " (c :: (y ++ c!", " ++ z)) with
        | none =>
          simp only
          exact ih y (c :: acc) fuel (by simpa using hy) (by simp at hfuel ⊢; omega)
        | some rest =>
          simp only
          have hd := dropPrefix_some hd
          cases y with
          | nil => simp at hd
          | cons d y =>
            have : rest = y ++ c!", " ++ z := by
              simp only [List.cons_append, List.nil_append, List.cons.injEq] at hd
              simpa using hd.2.2.symm
            rw [this]
            exact List.mem_cons_of_mem _ (ih y [] fuel (by simp at hy ⊢; omega) (by simp at hfuel ⊢; omega))

/-- C102: a value with a comma and a blank, followed by no other blank (`left, upper`), in a column other than the target, makes `fit` raise on every nominal data set. -/
theorem C102_values (hf : NominalFrame df target) {c : Str × List Val} (hc : c ∈ df.cols) (hct : c.1 ≠ target.1) {u z : Str} (hv : Val.str (u ++ c!", " ++ z) ∈ c.2)
    (hz : ' ' ∉ z) (hcats : cfg.cats = -1 ∨ ((pyUnique c.2).length : Int) ≤ cfg.cats) (st : QFState) : ∃ e, fit cfg st df target = .error e := by
  obtain ⟨hp, ho⟩ := simple_candidate (cfg := cfg) hf hc hct ((kept_all (ties := cfg.ties) hcats.symm _).2 hv)
  have hmem : z ++ c!"'" ∈ splitOn c!", " (⟨c.1, .equal, .str (u ++ c!", " ++ z)⟩ : Selector).str := by
    have e : (⟨c.1, .equal, .str (u ++ c!", " ++ z)⟩ : Selector).str = (c.1 ++ c!" = '" ++ u) ++ c!", " ++ (z ++ c!"'") := by
      simp [Selector.str, Op.str, Selector.valText]
    rw [e]
    unfold splitOn
    exact splitOnAux_last (by simpa using hz) _ _ _ _ (Nat.le_refl _) (Nat.lt_succ_self _)
  have hread := (C71_errors (z ++ c!"'") .indexError).2 (.inl ⟨rfl, by simpa using hz⟩)
  obtain ⟨e', he'⟩ := generate_fails (by simp [Selector.str]) hmem hread
  exact fit_unreadable hf hp ho he' st

/-! ### concrete cases -/

/-- patients with a column `blood pressure` -/
def pressureFrame : Frame := ⟨3, [(c!"blood pressure", [.str c!"high", .str c!"low", .str c!"high"]), (c!"t", [.str c!"1", .str c!"0", .str c!"1"])]⟩

/-- a value with a comma and a blank -/
def commaFrame : Frame := ⟨2, [(c!"side", [.str c!"left, upper", .str c!"right"]), (c!"t", [.str c!"1", .str c!"0"])]⟩

theorem nominal_of_texts {df : Frame} {target : Str × Str} (h1 : ∀ c ∈ df.cols, c.2.length = df.nrows) (h2 : (df.cols.map (·.1)).Nodup) (h3 : df.nominal = true)
    (h4 : target.1 ∈ df.cols.map (·.1)) : NominalFrame df target := by
  refine ⟨h1, h2, ?_, h4⟩
  intro c hc v hv
  simp only [Frame.nominal, List.all_eq_true] at h3
  have := h3 c hc v hv
  cases v <;> simp_all [Val.isStr]

open QFinderWitness in
example : ∃ e, fit cfgA .init pressureFrame tA = .error e :=
  C102_names (c := (c!"blood pressure", [.str c!"high", .str c!"low", .str c!"high"])) (first := c!"blood") (second := c!"pressure") (rest := [])
    (nominal_of_texts (by decide) (by decide) (by decide) (by decide)) (by decide) (by simp [pressureFrame]) (by decide) rfl (by decide) (by decide) (.inl rfl)
    (by intro op; cases op <;> decide) (.inl rfl) .init

open QFinderWitness in
example : ∃ e, fit cfgA .init commaFrame tA = .error e :=
  C102_values (c := (c!"side", [.str c!"left, upper", .str c!"right"])) (u := c!"left") (z := c!"upper")
    (nominal_of_texts (by decide) (by decide) (by decide) (by decide)) (by simp [commaFrame]) (by decide) (by decide) (by decide) (.inl rfl) .init

/-- a column whose name reads like the beginning of a selector on `a` -/
def quoteFrame : Frame := ⟨3, [(c!"a = 'b", [.str c!"x", .str c!"x", .str c!"y"]), (c!"t", [.str c!"1", .str c!"0", .str c!"0"])]⟩

open QFinderWitness in
/-- C102: when such texts can be read, what is read may be something else: `fit` can return patterns on an attribute that the data do not have. -/
theorem C102_wrong_attribute : ∃ (cfg : QFConfig) (df : Frame) (target : Str × Str) (st : QFState), NominalFrame df target ∧ fit cfg .init df target = .ok st ∧
    ∃ e ∈ st.top, ∃ s ∈ e.pat.sels, s.attr ∉ df.cols.map (·.1) := by
  have h : (match fit cfgA .init quoteFrame tA with
      | .ok st => decide (∃ e ∈ st.top, ∃ s ∈ e.pat.sels, s.attr ∉ quoteFrame.cols.map (·.1))
      | .error _ => false) = true := by decide +kernel
  refine ⟨cfgA, quoteFrame, tA, ?_⟩
  split at h
  · rename_i st h1
    exact ⟨st, nominal_of_texts (by decide) (by decide) (by decide) (by decide), h1, of_decide_eq_true h⟩
  · cases h

end Verif.QFinder

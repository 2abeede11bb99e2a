import Verif.Lemmas.QFinderData
/-! QFinder: the table of credibility values and `fit`. -/
namespace Verif.QFinder
open Spec BSD
open IDSD (redundant otherLoop valueCounts covBits covBits_length covBits_getD covBits_congr alignAnd_covBits mem_new new_len sublist_ext add_new new_sels_eq compute_ok mask_getD)

variable {df : Frame} {target : Str × Str}

/-! ### bits -/

section
open Classical

theorem rowBits_eq (X : List Selector) : rowBits df X = covBits df X := rfl

theorem colBits (hf : NominalFrame df target) {c : Str × List Val} (hc : c ∈ df.cols) (x : Str) :
    c.2.map (fun v => v.eq (.str x)) = covBits df [⟨c.1, .equal, .str x⟩] := by
  apply List.ext_getElem?
  intro i
  unfold IDSD.covBits
  rw [List.getElem?_map, List.getElem?_map]
  have hl := hf.wf c hc
  by_cases hi : i < df.nrows
  · have hi' : i < c.2.length := by omega
    rw [List.getElem?_eq_getElem hi', List.getElem?_eq_getElem (by simpa using hi)]
    simp only [Option.map_some, List.getElem_range, Option.some.injEq, covers_item hf hc]
    obtain ⟨y, hy⟩ := hf.texts c hc c.2[i] (List.getElem_mem hi')
    rw [List.getElem?_eq_getElem hi', hy]
    simp only [Val.eq, Option.some.injEq, Val.str.injEq]
    by_cases h : y = x <;> simp [h]
  · rw [List.getElem?_eq_none (by omega), List.getElem?_eq_none (by simpa using hi)]
    rfl

theorem selMatch_eq (hf : NominalFrame df target) {s : Selector} (hs : InCols df target s) : selMatch df target.1 s = .ok (covBits df [s]) := by
  obtain ⟨⟨h1, h2, x, h3⟩, h4⟩ := hs
  obtain ⟨c, hc, hca⟩ := List.mem_map.1 h4
  have hn : ((otherCols df target.1).map (·.1)).Nodup := hf.names.sublist (List.Sublist.map _ List.filter_sublist)
  have hl := lookup_of_mem_nodup hn ((mem_otherCols c).2 ⟨hc, by rw [hca]; exact h1⟩)
  unfold selMatch
  rw [hca] at hl
  rw [hl]
  simp only
  rw [h3, colBits hf hc x, hca]
  obtain ⟨a, o, v⟩ := s
  simp only at h2 h3
  rw [h2, h3]

theorem entryLoop_eq (hf : NominalFrame df target) (l Y : List Selector) (hl : ∀ s ∈ l, InCols df target s) :
    entryLoop df target.1 l (covBits df Y) = .ok (covBits df (Y ++ l)) := by
  induction l generalizing Y with
  | nil => simp [entryLoop]
  | cons s l ih =>
    rw [entryLoop, selMatch_eq hf (hl s (by simp))]
    simp only
    rw [alignAnd_covBits, ih _ (fun t ht => hl t (by simp [ht]))]
    simp

theorem entry_eq (hf : NominalFrame df target) {p : Pattern} (hne : p.sels ≠ []) (hp : ∀ s ∈ p.sels, InCols df target s) :
    entry df target.1 p = .ok (covBits df p.sels) := by
  unfold entry
  cases h : p.sels with
  | nil => exact absurd h hne
  | cons s l =>
    rw [h] at hp
    simp only
    rw [selMatch_eq hf (hp s (by simp))]
    simp only
    rw [entryLoop_eq hf l [s] (fun t ht => hp t (by simp [ht]))]
    rfl

theorem ones_ne_zero (X : List Selector) : (covBits df X).ones ≠ 0 ↔ OccursIn df X := by
  rw [Bits.ones_eq, covBits_length]
  constructor
  · intro h
    obtain ⟨i, hi⟩ := List.exists_mem_of_length_pos (Nat.pos_of_ne_zero h)
    rw [List.mem_filter, List.mem_range] at hi
    exact ⟨i, hi.1, ((covBits_getD X i).1 hi.2).2⟩
  · rintro ⟨i, h1, h2⟩ h
    have : i ∈ (List.range df.nrows).filter (fun i => (covBits df X).getD i false) := by
      rw [List.mem_filter, List.mem_range]
      exact ⟨h1, (covBits_getD X i).2 ⟨h1, h2⟩⟩
    rw [List.length_eq_zero_iff] at h
    rw [h] at this
    simp at this

/-- the patterns that occur in the data -/
noncomputable def occurring (df : Frame) (P : List Pattern) : List Pattern := P.filter (fun p => decide (OccursIn df p.sels))

theorem mem_occurring {P : List Pattern} {p : Pattern} : p ∈ occurring df P ↔ p ∈ P ∧ OccursIn df p.sels := by
  unfold occurring; rw [List.mem_filter, decide_eq_true_eq]

theorem occurring_cons {P : List Pattern} {p : Pattern} : occurring df (p :: P) = if OccursIn df p.sels then p :: occurring df P else occurring df P := by
  unfold occurring
  rw [List.filter_cons]
  simp only [decide_eq_true_eq]

theorem setCol_fresh {d : Dict Bits} {k : Str} {v : Bits} (h : k ∉ d.map (·.1)) : setCol d k v = d ++ [(k, v)] := by
  unfold setCol
  rw [if_neg (by simpa using h)]

theorem bitsetLoop_eq (hf : NominalFrame df target) (P : List Pattern) : ∀ (d : Dict Bits), (∀ p ∈ P, p.sels ≠ [] ∧ ∀ s ∈ p.sels, InCols df target s) →
    (d.map (·.1) ++ (occurring df P).map Pattern.str).Nodup →
    bitsetLoop df target.1 P d = .ok (d ++ (occurring df P).map (fun p => (p.str, covBits df p.sels))) := by
  induction P with
  | nil => intro d _ _; simp [bitsetLoop, occurring]
  | cons p P ih =>
    intro d hP hn
    obtain ⟨h1, h2⟩ := hP p (by simp)
    rw [bitsetLoop, entry_eq hf h1 h2]
    simp only
    rw [occurring_cons] at hn ⊢
    by_cases ho : OccursIn df p.sels
    · rw [if_pos ho] at hn
      rw [if_pos ho, if_pos ((ones_ne_zero _).2 ho)]
      have hk : p.str ∉ d.map (·.1) := by
        intro h
        rw [List.nodup_append] at hn
        exact hn.2.2 _ h p.str (by simp) rfl
      rw [setCol_fresh hk, ih _ (fun q hq => hP q (by simp [hq])) (by simpa using hn)]
      simp
    · rw [if_neg ho] at hn
      rw [if_neg ho, if_neg (fun h => ho ((ones_ne_zero _).1 h)), ih d (fun q hq => hP q (by simp [hq])) hn]

/-! ### texts -/

/-- a pattern whose text is read back as itself -/
structure Readable (p : Pattern) : Prop where
  canon : p = Pattern.new p.sels
  texts : ∀ s ∈ p.sels, TextEq s
  safe : ∀ s ∈ p.sels, ' ' ∉ s.attr
  sep : ∀ s ∈ p.sels, ¬ Occurs c!", " s.str

theorem Readable.generate {p : Pattern} (h : Readable p) : Pattern.generateFromStr p.str = .ok p := by
  have := pattern_generate p (fun s hs => ⟨by
    obtain ⟨h1, v, h2⟩ := h.texts s hs
    simp [Selector.legal, h1], h.safe s hs, fun f hf => by
    obtain ⟨h1, v, h2⟩ := h.texts s hs
    rw [h2] at hf
    simp at hf⟩) h.sep
  rw [this, ← h.canon]

theorem Readable.inj {p q : Pattern} (hp : Readable p) (hq : Readable q) (h : p.str = q.str) : p = q := by
  have h1 := hp.generate
  rw [h, hq.generate] at h1
  exact (Except.ok.inj h1).symm

theorem strs_nodup {Q : List Pattern} (hQ : Q.Nodup) (hr : ∀ p ∈ Q, Readable p) : (Q.map Pattern.str).Nodup :=
  List.Nodup.map_on (fun p hp q hq h => (hr p hp).inj (hr q hq) h) hQ

theorem mapM_ok {α β : Type} {f : α → Except PyErr β} {g : α → β} {l : List α} (h : ∀ a ∈ l, f a = .ok (g a)) : l.mapM f = .ok (l.map g) := by
  induction l with
  | nil => rfl
  | cons a l ih =>
    rw [mapM_cons_eq, h a (by simp), ih (fun b hb => h b (by simp [hb]))]
    rfl

theorem lookup_str {β : Type} {Q : List Pattern} (hQ : Q.Nodup) (hr : ∀ p ∈ Q, Readable p) (f : Pattern → β) {p : Pattern} (hp : p ∈ Q) :
    (Q.map (fun p => (p.str, f p))).lookup p.str = some (f p) := by
  have hn : ((Q.map (fun p => (p.str, f p))).map (·.1)).Nodup := by
    rw [List.map_map]; exact strs_nodup hQ hr
  exact lookup_of_mem_nodup hn (List.mem_map_of_mem (f := fun p => (p.str, f p)) hp)

theorem lookup_str_none {β : Type} {Q : List Pattern} (hr : ∀ p ∈ Q, Readable p) (f : Pattern → β) {p : Pattern} (hpr : Readable p) (hp : p ∉ Q) :
    (Q.map (fun p => (p.str, f p))).lookup p.str = none := by
  rw [List.lookup_eq_none_iff]
  rintro ⟨k, v⟩ h
  obtain ⟨q, hq, h⟩ := List.mem_map.1 h
  simp only [Prod.mk.injEq] at h
  simp only [ne_eq, bne_iff_ne]
  intro hk
  exact hp ((hpr.inj (hr q hq) (hk.trans h.1.symm)) ▸ hq)

/-! ### credibility -/

theorem loop_congr' {f g : Pattern → Except PyErr XF} {p : Pattern} (o : XF) (l : List Selector) (h : ∀ s ∈ l, f (p.copy.remove s) = g (p.copy.remove s))
    (mn mx : XF) : SelectorContribution.loop f none p o l mn mx = SelectorContribution.loop g none p o l mn mx := by
  induction l generalizing mn mx with
  | nil => rfl
  | cons s l ih =>
    rw [SelectorContribution.loop, SelectorContribution.loop, h s (by simp)]
    cases g (p.copy.remove s) with
    | error e => rfl
    | ok v => exact ih (fun t ht => h t (by simp [ht])) _ _

theorem compute_congr' {f g : Pattern → Except PyErr XF} {p : Pattern} (h0 : 2 ≤ p.len → f p = g p)
    (h : 2 ≤ p.len → ∀ s ∈ p.sels, f (p.copy.remove s) = g (p.copy.remove s)) :
    SelectorContribution.compute f none p = SelectorContribution.compute g none p := by
  unfold SelectorContribution.compute
  split
  · rfl
  · split
    · rfl
    · have h2 : 2 ≤ p.len := by omega
      rw [h0 h2]
      cases g p with
      | error e => rfl
      | ok o => simp only; rw [loop_congr' o p.sels (h h2)]

/-- with one selector left out -/
theorem remove_text {p : Pattern} (hs : Pattern.Sorted p.sels) (ht : ∀ s ∈ p.sels, TextEq s) {s : Selector} (hx : s ∈ p.sels) :
    Pattern.Sorted (p.copy.remove s).sels ∧ ∀ t, t ∈ (p.copy.remove s).sels ↔ t ∈ p.sels ∧ t ≠ s := by
  obtain ⟨h1, h2⟩ := Pattern.remove_spec (S := TextEq) (fun a b ha hb => TextEq.lt_key ha hb) (p := p.copy) (x := s) ht (ht s hx) hs
  refine ⟨h1, fun t => ?_⟩
  rw [h2]
  constructor
  · rintro ⟨a, b⟩; exact ⟨a, fun h => b (by rw [h])⟩
  · rintro ⟨a, b⟩; exact ⟨a, fun h => b (TextEq.key_inj (ht t a) (ht s hx) h)⟩

theorem Readable.sorted {p : Pattern} (h : Readable p) : Pattern.Sorted p.sels := by
  rw [h.canon]; exact (new_text h.texts).1

theorem Readable.remove {p : Pattern} (h : Readable p) {s : Selector} (hs : s ∈ p.sels) : Readable (p.copy.remove s) := by
  obtain ⟨h1, h2⟩ := remove_text h.sorted h.texts hs
  have hsub : ∀ t ∈ (p.copy.remove s).sels, t ∈ p.sels := fun t ht => ((h2 t).1 ht).1
  have ht : ∀ t ∈ (p.copy.remove s).sels, TextEq t := fun t ht => h.texts t (hsub t ht)
  exact ⟨new_sels_eq ht h1 (fun _ => Iff.rfl), ht, fun t ht => h.safe t (hsub t ht), fun t ht => h.sep t (hsub t ht)⟩

/-- the columns of the bitset of the patterns `Q` -/
noncomputable def cols (df : Frame) (Q : List Pattern) : Dict Bits := Q.map (fun p => (p.str, covBits df p.sels))

theorem tableOr_mem (cfg : QFConfig) {Q : List Pattern} (hQ : Q.Nodup) (hr : ∀ p ∈ Q, Readable p) {q : Pattern} (hq : q ∈ Q) :
    SelectorContribution.tableOr ((cols df Q).map (fun x => (x.1, cfg.glmOr x.2 (covBits df [targetSel target])))) q = .ok (glmOddsOf cfg df target q.sels) := by
  unfold SelectorContribution.tableOr cols
  rw [List.map_map]
  have := lookup_str hQ hr (fun p => cfg.glmOr (covBits df p.sels) (covBits df [targetSel target])) hq
  unfold Function.comp
  simp only at this ⊢
  rw [this]
  rfl

theorem tableOr_not_mem (cfg : QFConfig) {Q : List Pattern} (hr : ∀ p ∈ Q, Readable p) {q : Pattern} (hqr : Readable q) (hq : q ∉ Q) :
    SelectorContribution.tableOr ((cols df Q).map (fun x => (x.1, cfg.glmOr x.2 (covBits df [targetSel target])))) q = .error .keyError := by
  unfold SelectorContribution.tableOr cols
  rw [List.map_map]
  have := lookup_str_none hr (fun p => cfg.glmOr (covBits df p.sels) (covBits df [targetSel target])) hqr hq
  unfold Function.comp
  simp only at this ⊢
  rw [this]

theorem glmContrib_ok (cfg : QFConfig) (df : Frame) (target : Str × Str) (p : Pattern) :
    SelectorContribution.compute (fun q => .ok (glmOddsOf cfg df target q.sels)) none p = .ok (glmContribOf cfg df target p) := by
  obtain ⟨r, hr⟩ := compute_ok (fun q => glmOddsOf cfg df target q.sels) p
  unfold glmContribOf
  rw [hr]

theorem credOfCol_ok (cfg : QFConfig) {Q : List Pattern} (hQ : Q.Nodup) (hr : ∀ p ∈ Q, Readable p) {p : Pattern} (hp : p ∈ Q)
    (hcl : 2 ≤ p.len → ∀ s ∈ p.sels, p.copy.remove s ∈ Q) :
    credOfCol cfg (cols df Q) (covBits df [targetSel target]) df.nrows (p.str, covBits df p.sels) = .ok (p.str, (qfEntryOf cfg df target Q.length p).cred) := by
  unfold credOfCol
  simp only
  rw [(hr p hp).generate]
  simp only
  rw [compute_congr' (g := fun q => .ok (glmOddsOf cfg df target q.sels)) (fun _ => tableOr_mem cfg hQ hr hp)
    (fun h2 s hs => tableOr_mem cfg hQ hr (hcl h2 s hs)), glmContrib_ok]
  simp only [qfEntryOf, Except.ok.injEq, Prod.mk.injEq, true_and, QFCred.mk.injEq, XF.fin.injEq]
  refine ⟨?_, rfl, rfl, ?_⟩
  · unfold covOf; rw [IDSD.ones_covBits (target := target)]
  · unfold cols; rw [List.length_map]
    show (glmPOf cfg df target p.sels).mulPos Q.length = _
    cases glmPOf cfg df target p.sels with
    | fin q => simp only [XF.mulPos, bonferroni]; rw [mul_comm]
    | _ => rfl

theorem credTable_ok (cfg : QFConfig) {Q : List Pattern} (hQ : Q.Nodup) (hr : ∀ p ∈ Q, Readable p)
    (hcl : ∀ p ∈ Q, 2 ≤ p.len → ∀ s ∈ p.sels, p.copy.remove s ∈ Q) :
    credTable cfg (cols df Q) (covBits df [targetSel target]) df.nrows = .ok (Q.map (fun p => (p.str, (qfEntryOf cfg df target Q.length p).cred))) := by
  unfold credTable
  have h : cols df Q = Q.map (fun p => (p.str, covBits df p.sels)) := rfl
  conv_lhs => arg 2; rw [h]
  rw [List.mapM_map]
  exact mapM_ok (fun p hp => credOfCol_ok cfg hQ hr hp (hcl p hp))

/-- a missing generalisation is a `KeyError` -/
theorem credOfCol_error (cfg : QFConfig) {Q : List Pattern} (hQ : Q.Nodup) (hr : ∀ p ∈ Q, Readable p) {p : Pattern} (hp : p ∈ Q)
    (h2 : 2 ≤ p.len) {s : Selector} (hs : s ∈ p.sels) (hne : p.copy.remove s ∉ Q) :
    credOfCol cfg (cols df Q) (covBits df [targetSel target]) df.nrows (p.str, covBits df p.sels) = .error .keyError := by
  unfold credOfCol
  simp only
  rw [(hr p hp).generate]
  simp only
  have hloop : ∀ (l : List Selector) (mn mx o : XF), (∀ t ∈ l, t ∈ p.sels) → s ∈ l →
      SelectorContribution.loop (SelectorContribution.tableOr ((cols df Q).map (fun x => (x.1, cfg.glmOr x.2 (covBits df [targetSel target]))))) none p o l mn mx =
        .error .keyError := by
    intro l
    induction l with
    | nil => intro _ _ _ _ h; simp at h
    | cons t l ih =>
      intro mn mx o hl hsl
      rw [SelectorContribution.loop]
      by_cases ht : p.copy.remove t ∈ Q
      · rw [tableOr_mem cfg hQ hr ht]
        have hts : t ≠ s := fun h => hne (h ▸ ht)
        exact ih _ _ o (fun u hu => hl u (by simp [hu])) ((List.mem_cons.1 hsl).resolve_left (fun h => hts h.symm))
      · rw [tableOr_not_mem cfg hr ((hr p hp).remove (hl t (by simp))) ht]
  have hc : SelectorContribution.compute (SelectorContribution.tableOr ((cols df Q).map (fun x => (x.1, cfg.glmOr x.2 (covBits df [targetSel target]))))) none p =
      .error .keyError := by
    unfold SelectorContribution.compute
    rw [if_neg (by omega), if_neg (by omega), tableOr_mem cfg hQ hr hp]
    simp only
    rw [hloop p.sels _ _ _ (fun _ h => h) hs]
  rw [hc]

theorem mapM_error {α β : Type} {f : α → Except PyErr β} {e : PyErr} {l : List α} (h : ∀ a ∈ l, (∃ b, f a = .ok b) ∨ f a = .error e) (hx : ∃ a ∈ l, f a = .error e) :
    l.mapM f = .error e := by
  induction l with
  | nil => simp at hx
  | cons a l ih =>
    rw [mapM_cons_eq]
    rcases h a (by simp) with ⟨b, hb⟩ | hb
    · obtain ⟨x, hx1, hx2⟩ := hx
      rcases List.mem_cons.1 hx1 with rfl | hx1
      · rw [hb] at hx2; simp at hx2
      · rw [hb, ih (fun y hy => h y (by simp [hy])) ⟨x, hx1, hx2⟩]
    · rw [hb]

theorem credTable_error (cfg : QFConfig) {Q : List Pattern} (hQ : Q.Nodup) (hr : ∀ p ∈ Q, Readable p)
    (hx : ∃ p ∈ Q, 2 ≤ p.len ∧ ∃ s ∈ p.sels, p.copy.remove s ∉ Q) :
    credTable cfg (cols df Q) (covBits df [targetSel target]) df.nrows = .error .keyError := by
  unfold credTable
  have h : cols df Q = Q.map (fun p => (p.str, covBits df p.sels)) := rfl
  conv_lhs => arg 2; rw [h]
  rw [List.mapM_map]
  apply mapM_error
  · intro p hp
    by_cases hc : 2 ≤ p.len → ∀ s ∈ p.sels, p.copy.remove s ∈ Q
    · exact .inl ⟨_, credOfCol_ok cfg hQ hr hp hc⟩
    · push Not at hc
      obtain ⟨h2, s, hs, hn⟩ := hc
      exact .inr (credOfCol_error cfg hQ hr hp h2 hs hn)
  · obtain ⟨p, hp, h2, s, hs, hn⟩ := hx
    exact ⟨p, hp, credOfCol_error cfg hQ hr hp h2 hs hn⟩

/-! ### fit -/

theorem targetMask_eq (hf : NominalFrame df target) : targetMask df target = .ok (covBits df [targetSel target]) := by
  obtain ⟨c, hc, hca⟩ := List.mem_map.1 hf.target
  have hl := lookup_of_mem_nodup hf.names hc
  unfold targetMask Frame.col
  rw [hca] at hl
  rw [hl]
  simp only
  rw [colBits hf hc target.2, hca]
  rfl

variable {cfg : QFConfig}

theorem candSets_sel (hf : NominalFrame df target) {X : List Selector} (hX : X ∈ candSets cfg df target.1) : ∀ s ∈ X, InCols df target s :=
  fun _ hs => simples_inCols hf cfg.cats (((mem_candSets cfg X).1 hX).2.1.subset hs)

theorem candidates_nodup (hf : NominalFrame df target) : (candidates cfg df target.1).Nodup := by
  rw [candidates_eq hf]
  refine List.Nodup.map_on (fun X hX Y hY h => ?_) (nodup_candSets hf cfg)
  have h1 := ((mem_candSets cfg X).1 hX).2.1
  have h2 := ((mem_candSets cfg Y).1 hY).2.1
  refine sublist_ext (simples_nodup hf cfg.cats) h1 h2 (fun s => ?_)
  rw [← mem_new (fun s hs => (candSets_sel hf hX s hs).1.2), ← mem_new (fun s hs => (candSets_sel hf hY s hs).1.2), h]

theorem candidates_cols (hf : NominalFrame df target) {p : Pattern} (hp : p ∈ candidates cfg df target.1) :
    p.sels ≠ [] ∧ ∀ s ∈ p.sels, InCols df target s := by
  rw [candidates_eq hf] at hp
  obtain ⟨X, hX, rfl⟩ := List.mem_map.1 hp
  have hs := candSets_sel hf hX
  have hm := mem_new (fun s h => (hs s h).1.2)
  refine ⟨fun h => ?_, fun s h => hs s ((hm s).1 h)⟩
  obtain ⟨s, h'⟩ := List.exists_mem_of_ne_nil _ ((mem_candSets cfg X).1 hX).1
  have := (hm s).2 h'
  rw [h] at this
  simp at this

theorem inCols_describes {p : Pattern} (h : p.sels ≠ [] ∧ ∀ s ∈ p.sels, InCols df target s) : Describes target p.sels := ⟨h.1, fun s hs => (h.2 s hs).1⟩

theorem occurring_readable (hf : NominalFrame df target) (hs : SafeTexts df target) : ∀ p ∈ occurring df (candidates cfg df target.1), Readable p := by
  intro p hp
  rw [mem_occurring] at hp
  obtain ⟨hp, ho⟩ := hp
  have h := candidates_cols hf hp
  rw [candidates_eq hf] at hp
  obtain ⟨X, hX, hpX⟩ := List.mem_map.1 hp
  have ht : ∀ s ∈ X, TextEq s := fun s hs => (candSets_sel hf hX s hs).1.2
  have h1 : ∀ s ∈ p.sels, ' ' ∉ s.attr ∧ ¬ Occurs c!", " s.str := fun s hs' =>
    hs s ⟨by simp, fun t h' => by rw [List.mem_singleton.1 h']; exact (h.2 s hs').1⟩
      (occursIn_mono (by intro t h'; rw [List.mem_singleton.1 h']; exact hs') ho)
  refine ⟨?_, fun s hs' => (h.2 s hs').1.2, fun s hs' => (h1 s hs').1, fun s hs' => (h1 s hs').2⟩
  exact new_sels_eq (fun s hs' => (h.2 s hs').1.2) (by rw [← hpX]; exact (new_text ht).1) (fun _ => Iff.rfl)

theorem occurring_closed (hf : NominalFrame df target) : ∀ p ∈ occurring df (candidates cfg df target.1), 2 ≤ p.len → ∀ s ∈ p.sels,
    p.copy.remove s ∈ occurring df (candidates cfg df target.1) := by
  intro p hp h2 s hs
  rw [mem_occurring] at hp ⊢
  obtain ⟨hp, ho⟩ := hp
  have hin := candidates_cols hf hp
  rw [candidates_eq hf] at hp ⊢
  obtain ⟨X, hX, rfl⟩ := List.mem_map.1 hp
  have ht : ∀ s ∈ X, TextEq s := fun s hs => (candSets_sel hf hX s hs).1.2
  have hm := mem_new ht
  obtain ⟨r1, r2⟩ := remove_text (new_text ht).1 (fun s hs => (hin.2 s hs).1.2) hs
  obtain ⟨c1, c2, c3, c4⟩ := (mem_candSets cfg X).1 hX
  have hnx : X.Nodup := c2.nodup (simples_nodup hf cfg.cats)
  rw [new_len ht hnx] at h2
  refine ⟨List.mem_map.2 ⟨X.filter (fun t => decide (t ≠ s)), (mem_candSets cfg _).2 ⟨?_, List.filter_sublist.trans c2,
    c3.sublist (List.filter_sublist.map _), le_trans (List.length_filter_le _ _) c4⟩, ?_⟩, occursIn_mono (fun t h => ((r2 t).1 h).1) ho⟩
  · intro h
    rw [List.filter_eq_nil_iff] at h
    have : ∀ t ∈ X, t = s := fun t ht => by simpa using h t ht
    match X, h2, hnx, this with
    | [], h2, _, _ => simp at h2
    | [_], h2, _, _ => simp at h2
    | a :: b :: l, _, hnx, this =>
      have := (this a (by simp)).trans (this b (by simp)).symm
      simp [this] at hnx
  · refine (new_sels_eq (fun t h => ht t (List.mem_of_mem_filter h)) r1 (fun t => ?_)).symm
    rw [r2, List.mem_filter, decide_eq_true_eq, hm]

/-- `fit`, exactly -/
theorem fit_eq (hf : NominalFrame df target) (hs : SafeTexts df target) (st : QFState) :
    fit cfg st df target =
      match selectTopK cfg (rankPatterns cfg ((occurring df (candidates cfg df target.1)).map
        (qfEntryOf cfg df target (occurring df (candidates cfg df target.1)).length))) with
      | .error e => .error e
      | .ok top => .ok ⟨occurring df (candidates cfg df target.1), (occurring df (candidates cfg df target.1)).map (fun p =>
          (p.str, (qfEntryOf cfg df target (occurring df (candidates cfg df target.1)).length p).cred)), top⟩ := by
  set Q := occurring df (candidates cfg df target.1) with hQ
  have hQn : Q.Nodup := (candidates_nodup hf).filter _
  have hr : ∀ p ∈ Q, Readable p := occurring_readable hf hs
  have hcl := occurring_closed (cfg := cfg) hf
  have hb := bitsetLoop_eq hf (candidates cfg df target.1) [] (fun p hp => candidates_cols hf hp) (by
    rw [List.map_nil, List.nil_append]; exact strs_nodup hQn hr)
  rw [List.nil_append] at hb
  have hg : ((cols df Q).map (·.1)).mapM Pattern.generateFromStr = .ok Q := by
    unfold cols
    rw [List.map_map, List.mapM_map]
    exact (mapM_ok (g := id) (fun p hp => (hr p hp).generate)).trans (by rw [List.map_id])
  have hc := credTable_ok (df := df) (target := target) cfg hQn hr hcl
  have hw : Q.mapM (withCred (Q.map (fun p => (p.str, (qfEntryOf cfg df target Q.length p).cred)))) = .ok (Q.map (qfEntryOf cfg df target Q.length)) := by
    apply mapM_ok
    intro p hp
    unfold withCred
    rw [lookup_str hQn hr (fun p => (qfEntryOf cfg df target Q.length p).cred) hp]
    rfl
  unfold fit
  rw [nominal_of hf, targetMask_eq hf, hb]
  simp only [Bool.not_true, Bool.false_eq_true, if_false]
  have e : List.map (fun p => (p.str, covBits df p.sels)) (occurring df (candidates cfg df target.1)) = cols df Q := rfl
  rw [e, hg, hc]
  simp only
  rw [hw]
  rfl

end

end Verif.QFinder

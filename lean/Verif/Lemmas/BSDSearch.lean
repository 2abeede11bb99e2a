import Verif.Lemmas.BSDRun
import Verif.Lemmas.VLSDFit
/-! BSD: the recursive search. -/
set_option linter.unusedSectionVars false
namespace Verif
open Classical Spec
namespace BSD

variable {cfg : BSDConfig} {df : Frame} {target : Str × Str}

/-! ## bits of descriptions -/

theorem length_bitsFor (rows : List Nat) (X : List Selector) : (bitsFor df rows X).length = rows.length := by simp [bitsFor]

theorem ones_bitsFor_pos (X : List Selector) : (bitsFor df (posRows df target) X).ones = tpOf df target X := by
  unfold Bits.ones bitsFor tpOf posRows
  rw [List.count_eq_countP, List.countP_map, List.countP_eq_length_filter, List.filter_filter]
  congr 1
  apply List.filter_congr
  intro i _
  simp

theorem ones_bitsFor_neg (X : List Selector) : (bitsFor df (negRows df target) X).ones = fpOf df target X := by
  unfold Bits.ones bitsFor fpOf negRows
  rw [List.count_eq_countP, List.countP_map, List.countP_eq_length_filter, List.filter_filter]
  congr 1
  apply List.filter_congr
  intro i _
  simp

theorem bitsFor_and {rows : List Nat} {X Y Z : List Selector} (h : ∀ t, t ∈ Z ↔ t ∈ X ∨ t ∈ Y) :
    (bitsFor df rows X).and (bitsFor df rows Y) = bitsFor df rows Z := by
  unfold bitsFor Bits.and
  rw [List.zipWith_map, List.zipWith_self]
  apply List.map_congr_left
  intro i _
  rw [← Bool.decide_and, decide_eq_decide]
  constructor
  · rintro ⟨h1, h2⟩ s hs
    rcases (h s).1 hs with hs | hs
    · exact h1 s hs
    · exact h2 s hs
  · intro hh
    exact ⟨fun s hs => hh s ((h s).2 (Or.inl hs)), fun s hs => hh s ((h s).2 (Or.inr hs))⟩

theorem bitsFor_congr {rows : List Nat} {X Y : List Selector} (h : ∀ t, t ∈ X ↔ t ∈ Y) : bitsFor df rows X = bitsFor df rows Y := by
  unfold bitsFor
  apply List.map_congr_left
  intro i _
  rw [decide_eq_decide]
  exact covers_congr h i

theorem bitsFor_nil (rows : List Nat) : bitsFor df rows [] = List.replicate rows.length true := by
  unfold bitsFor
  rw [List.eq_replicate_iff]
  simp [Covers]

theorem quality_congr {X Y : List Selector} (h : ∀ t, t ∈ X ↔ t ∈ Y) : bsdQuality cfg df target X = bsdQuality cfg df target Y := by
  unfold bsdQuality; rw [tpOf_congr h, fpOf_congr h]

/-! ## patterns -/

/-- a sorted pattern of selectors of `F` -/
def CondOK (F : List Selector) (p : Pattern) : Prop := Pattern.Sorted p.sels ∧ ∀ s ∈ p.sels, s ∈ F

theorem IsSel.text {s : Selector} (h : IsSel target s) : TextEq s := h.2

theorem extend_spec {F : List Selector} (hF : ∀ s ∈ F, IsSel target s) {cond : Pattern} {s : Selector} (hc : CondOK F cond) (hs : s ∈ F) :
    CondOK F (extend cond s) ∧ (∀ t, t ∈ (extend cond s).sels ↔ t ∈ cond.sels ∨ t ∈ [s]) ∧
    (s ∉ cond.sels → (extend cond s).sels.length = cond.sels.length + 1) := by
  have main : Pattern.Sorted (extend cond s).sels ∧ (∀ t, t ∈ (extend cond s).sels ↔ t ∈ cond.sels ∨ t ∈ [s]) := by
    unfold extend
    by_cases h : cond.sels = []
    · rw [if_pos h]
      obtain ⟨h1, h2⟩ := new_text (X := [s]) (by intro t ht; rw [List.mem_singleton.1 ht]; exact (hF s hs).2)
      exact ⟨h1, by rw [h]; simpa using h2⟩
    · rw [if_neg h]
      have hS : ∀ t ∈ cond.copy.sels, TextEq t := fun t ht => (hF t (hc.2 t ht)).2
      obtain ⟨h1, h2, h3⟩ := Pattern.add_spec (S := TextEq) (fun a b ha hb => TextEq.lt_key ha hb) hS (hF s hs).2 hc.1
      refine ⟨h2, fun t => ⟨fun ht => ?_, ?_⟩⟩
      · rcases h1 t ht with h | h
        · exact Or.inl h
        · exact Or.inr (by simp [h])
      · intro ht
        have key : ∀ u, TextEq u → ((∃ t ∈ cond.copy.sels, t.key = u.key) ∨ s.key = u.key) → u ∈ (cond.copy.add s).sels := by
          intro u hu hh
          obtain ⟨w, hw, hk⟩ := (h3 u.key).2 hh
          have hwt : TextEq w := by
            rcases h1 w hw with h | h
            · exact hS w h
            · rw [h]; exact (hF s hs).2
          rw [← TextEq.key_inj hwt hu hk]; exact hw
        rcases ht with ht | ht
        · exact key t (hS t ht) (Or.inl ⟨t, ht, rfl⟩)
        · rw [List.mem_singleton.1 ht]; exact key s (hF s hs).2 (Or.inr rfl)
  refine ⟨⟨main.1, ?_⟩, main.2, ?_⟩
  · intro t ht
    rcases (main.2 t).1 ht with h | h
    · exact hc.2 t h
    · rw [List.mem_singleton.1 h]; exact hs
  · intro hns
    have hp : (extend cond s).sels.Perm (s :: cond.sels) := by
      rw [List.perm_ext_iff_of_nodup (nodup_of_sorted main.1) (List.nodup_cons.2 ⟨hns, nodup_of_sorted hc.1⟩)]
      intro t
      rw [main.2 t]; simp; exact Or.comm
    rw [hp.length_eq]; rfl

/-! ## one level -/

/-- the selectors and their bits -/
structure BitsOK (B : Dict Bits × Dict Bits) (df : Frame) (target : Str × Str) (F : List Selector) : Prop where
  sel : ∀ s ∈ F, IsSel target s
  pos : ∀ s ∈ F, BitsetBSD.get B.1 s = .ok (bitsFor df (posRows df target) [s])
  neg : ∀ s ∈ F, BitsetBSD.get B.2 s = .ok (bitsFor df (negRows df target) [s])

noncomputable abbrev nP (df : Frame) (target : Str × Str) : Nat := (posRows df target).length
noncomputable abbrev nN (df : Frame) (target : Str × Str) : Nat := (negRows df target).length

/-- monotone quality, for BSD -/
abbrev Mono (cfg : BSDConfig) (df : Frame) (target : Str × Str) : Prop := MonoOn cfg.variant (nP df target) (ExactEntry cfg df target)

/-- the list is in order and its entries are exact -/
structure StOK (cfg : BSDConfig) (df : Frame) (target : Str × Str) (st : BSDState) : Prop where
  inv : KInv cfg.num (nP df target + nN df target) st.k
  exact : ∀ e ∈ realEntries st.k, ExactEntry cfg df target e

theorem exact_real (ha : BSDAbove cfg df target) {e : BSDEntry} (he : ExactEntry cfg df target e) : RealE (nP df target + nN df target) e :=
  ⟨he.describes.1, by rw [he.bits, List.length_append, length_bitsFor, length_bitsFor], ha _ _ he.describes he.occurs he.quality⟩

abbrev RunF (cfg : BSDConfig) (df : Frame) (target : Str × Str) := Run cfg.variant cfg.num (nP df target)

theorem run_ok (hn : 0 < cfg.num) (ha : BSDAbove cfg df target) {st st' : BSDState} {es : List BSDEntry} (hr : RunF cfg df target st es st')
    (hs : StOK cfg df target st) (he : ∀ e ∈ es, ExactEntry cfg df target e) : StOK cfg df target st' := by
  have := run_spec (N := nN df target) hn hr hs.inv (fun e h => exact_real ha (he e h))
  refine ⟨this.inv, fun e h => ?_⟩
  rcases this.mem e h with h | h
  · exact hs.exact e h
  · exact he e h

theorem run_bestF (hn : 0 < cfg.num) (ha : BSDAbove cfg df target) (hm : Mono cfg df target) {st st' : BSDState} {es : List BSDEntry}
    (hr : RunF cfg df target st es st') (hs : StOK cfg df target st) (he : ∀ e ∈ es, ExactEntry cfg df target e) :
    (∀ x, BestGe st x → BestGe st' x) ∧ (∀ e ∈ es, e.quality ≤ e.oe → BestGe st' e.quality) :=
  run_best (N := nN df target) hn hm hr hs.inv (fun e h => exact_real ha (he e h)) he hs.exact

theorem candBits_ok {B : Dict Bits × Dict Bits} {F : List Selector} (hB : BitsOK B df target F) {cond : Pattern} (hc : CondOK F cond) {s : Selector} (hs : s ∈ F) :
    BSDConfig.candBits B cond (bitsFor df (posRows df target) cond.sels) (bitsFor df (negRows df target) cond.sels) s =
      .ok (bitsFor df (posRows df target) (extend cond s).sels, bitsFor df (negRows df target) (extend cond s).sels) := by
  obtain ⟨_, h2, _⟩ := extend_spec hB.sel hc hs
  unfold BSDConfig.candBits
  rw [hB.pos s hs, hB.neg s hs]
  simp only
  by_cases h : cond.sels = []
  · rw [if_pos h]
    have : ∀ t, t ∈ [s] ↔ t ∈ (extend cond s).sels := by intro t; rw [h2 t, h]; simp
    rw [bitsFor_congr this, bitsFor_congr this]
  · rw [if_neg h, logicalAnd_eq (by simp only [length_bitsFor]), logicalAnd_eq (by simp only [length_bitsFor])]
    simp only
    rw [bitsFor_and h2, bitsFor_and h2]

/-- the new entry is exact -/
theorem entry_exact {F : List Selector} (hF : ∀ s ∈ F, IsSel target s) {p : Pattern} (hp : CondOK F p) (hne : p.sels ≠ []) (ho : OccursIn df p.sels) {q o : Rat}
    (hq : bsdQuality cfg df target p.sels = .ok q) (hoe : bsdEstimate cfg df target p.sels = .ok o) :
    ExactEntry cfg df target ⟨q, p, bitsFor df (posRows df target) p.sels ++ bitsFor df (negRows df target) p.sels, o,
      (bitsFor df (posRows df target) p.sels).ones, (bitsFor df (negRows df target) p.sels).ones⟩ := by
  refine ⟨⟨hne, fun s hs => hF s (hp.2 s hs)⟩, ?_, ho, rfl, ones_bitsFor_pos _, ones_bitsFor_neg _, hq, hoe⟩
  exact hp.1.imp_of_mem (fun {a b} ha hb h => (TextEq.lt_key (hF a (hp.2 a ha)).2 (hF b (hp.2 b hb)).2).2 h)

/-- the result of the first loop -/
structure LevelSpec (cfg : BSDConfig) (df : Frame) (target : Str × Str) (cond : Pattern) (sel : List Selector) (st st' : BSDState)
    (new : List (Rat × Selector)) (es : List BSDEntry) : Prop where
  run : RunF cfg df target st es st'
  exact : ∀ e ∈ es, ExactEntry cfg df target e
  from_ : ∀ e ∈ es, ∃ s ∈ sel, e.pat = extend cond s
  nodup : es.Pairwise (fun a b => a.pat.sels ≠ b.pat.sels)
  new_sub : (new.map (·.2)).Sublist sel
  new_oe : ∀ o s, (o, s) ∈ new → OccursIn df (extend cond s).sels ∧ bsdEstimate cfg df target (extend cond s).sels = .ok o
  all : ∀ s ∈ sel, OccursIn df (extend cond s).sels → ∃ e ∈ es, e.pat = extend cond s
  out : Mono cfg df target → ∀ s ∈ sel, OccursIn df (extend cond s).sels → s ∉ new.map (·.2) →
    ∃ o, bsdEstimate cfg df target (extend cond s).sels = .ok o ∧ BestGe st' o

theorem level_spec (hn : 0 < cfg.num) (ha : BSDAbove cfg df target) {B : Dict Bits × Dict Bits} {F : List Selector} (hB : BitsOK B df target F)
    {cond : Pattern} (hc : CondOK F cond) (sel : List Selector) (hsF : ∀ s ∈ sel, s ∈ F) (hnd : sel.Nodup) (hdis : ∀ s ∈ sel, s ∉ cond.sels)
    (st : BSDState) (hst : StOK cfg df target st) :
    (∀ st' new, cfg.level B (tpOf df target []) (fpOf df target []) cond (bitsFor df (posRows df target) cond.sels) (bitsFor df (negRows df target) cond.sels) sel st
        = .ok (st', new) → ∃ es, LevelSpec cfg df target cond sel st st' new es) ∧
    (BSDNoErr cfg df target → ∃ r, cfg.level B (tpOf df target []) (fpOf df target []) cond (bitsFor df (posRows df target) cond.sels) (bitsFor df (negRows df target) cond.sels) sel st
        = .ok r) := by
  induction sel generalizing st with
  | nil =>
    refine ⟨?_, fun _ => ⟨_, rfl⟩⟩
    intro st' new h
    cases h
    exact ⟨[], .nil _, by simp, by simp, by simp, by simp, by simp, by simp, by simp⟩
  | cons s sel ih =>
    have hsF' : ∀ s' ∈ sel, s' ∈ F := fun s' h => hsF s' (by simp [h])
    have ihx := ih hsF' (List.nodup_cons.1 hnd).2 (fun s' h => hdis s' (by simp [h]))
    obtain ⟨e1, e2, e3⟩ := extend_spec hB.sel hc (hsF s (by simp))
    have hne : (extend cond s).sels ≠ [] := List.ne_nil_of_mem ((e2 s).2 (Or.inr (by simp)))
    have hocc := occurs_iff (df := df) (target := target) (X := (extend cond s).sels)
    unfold BSDConfig.level
    rw [candBits_ok hB hc (hsF s (by simp))]
    simp only [ones_bitsFor_pos, ones_bitsFor_neg]
    by_cases h0 : tpOf df target (extend cond s).sels + fpOf df target (extend cond s).sels = 0
    · rw [if_pos h0]
      have hst1 : StOK cfg df target { st with unselected := st.unselected + 1, skipped := st.skipped + 1 } := ⟨hst.inv, hst.exact⟩
      obtain ⟨i1, i2⟩ := ihx _ hst1
      refine ⟨?_, i2⟩
      intro st' new h
      obtain ⟨es, hL⟩ := i1 st' new h
      have hno : ¬ OccursIn df (extend cond s).sels := fun hh => by have := hocc.2 hh; omega
      refine ⟨es, .skip hL.run, hL.exact, ?_, hL.nodup, hL.new_sub.cons _, hL.new_oe, ?_, ?_⟩
      · intro e he; obtain ⟨s', h1, h2⟩ := hL.from_ e he; exact ⟨s', by simp [h1], h2⟩
      · intro s' hs' ho
        rcases List.mem_cons.1 hs' with rfl | hs'
        · exact absurd ho hno
        · exact hL.all s' hs' ho
      · intro hm s' hs' ho hnn
        rcases List.mem_cons.1 hs' with rfl | hs'
        · exact absurd ho hno
        · exact hL.out hm s' hs' ho hnn
    · rw [if_neg h0]
      have ho : OccursIn df (extend cond s).sels := hocc.1 (by omega)
      have hdesc : Describes target (extend cond s).sels := ⟨hne, fun t ht => hB.sel t (e1.2 t ht)⟩
      have hoe : cfg.estimate (paramsFor (tpOf df target (extend cond s).sels) (fpOf df target (extend cond s).sels) (tpOf df target []) (fpOf df target []) cfg.extraOE)
          = bsdEstimate cfg df target (extend cond s).sels := rfl
      have hqe : cfg.measure (paramsFor (tpOf df target (extend cond s).sels) (fpOf df target (extend cond s).sels) (tpOf df target []) (fpOf df target []) cfg.extra)
          = bsdQuality cfg df target (extend cond s).sels := rfl
      rw [hoe, hqe]
      constructor
      · intro st' new h
        cases hO : bsdEstimate cfg df target (extend cond s).sels with
        | error e => rw [hO] at h; cases h
        | ok o =>
          rw [hO] at h
          simp only at h
          cases hQ : bsdQuality cfg df target (extend cond s).sels with
          | error e => rw [hQ] at h; cases h
          | ok q =>
            rw [hQ] at h
            simp only at h
            have hex := entry_exact (cfg := cfg) hB.sel e1 hne ho hQ hO
            rw [ones_bitsFor_pos, ones_bitsFor_neg] at hex
            generalize hen : (⟨q, extend cond s, bitsFor df (posRows df target) (extend cond s).sels ++ bitsFor df (negRows df target) (extend cond s).sels, o,
              tpOf df target (extend cond s).sels, fpOf df target (extend cond s).sels⟩ : BSDEntry) = en at h hex
            have b1 : bitsFor df (posRows df target) (extend cond s).sels = en.bits.take (nP df target) := by
              rw [← hen]; simp only; rw [List.take_left' (length_bitsFor _ _)]
            have b2 : bitsFor df (negRows df target) (extend cond s).sels = en.bits.drop (nP df target) := by
              rw [← hen]; simp only; rw [List.drop_left' (length_bitsFor _ _)]
            have hpat : en.pat = extend cond s := by rw [← hen]
            have hoe' : en.oe = o := by rw [← hen]
            rw [b1, b2] at h
            cases hh : handle cfg.variant cfg.num st en (en.bits.take (nP df target)) (en.bits.drop (nP df target)) with
            | error e => rw [hh] at h; cases h
            | ok r =>
              obtain ⟨st1, kept⟩ := r
              rw [hh] at h
              simp only at h
              have hrun1 : RunF cfg df target st [en] st1 := .handle hh (.nil _)
              have hst1 := run_ok hn ha hrun1 hst (by intro e he; rw [List.mem_singleton.1 he]; exact hex)
              obtain ⟨i1, _⟩ := ihx _ hst1
              rw [b1, b2] at *
              cases hl : cfg.level B (tpOf df target []) (fpOf df target []) cond (bitsFor df (posRows df target) cond.sels) (bitsFor df (negRows df target) cond.sels) sel st1 with
              | error e => rw [hl] at h; cases h
              | ok r =>
                obtain ⟨st2, new2⟩ := r
                rw [hl] at h
                cases h
                obtain ⟨es, hL⟩ := i1 _ new2 hl
                refine ⟨en :: es, .handle hh hL.run, ?_, ?_, ?_, ?_, ?_, ?_, ?_⟩
                · intro e he
                  rcases List.mem_cons.1 he with rfl | he
                  · exact hex
                  · exact hL.exact e he
                · intro e he
                  rcases List.mem_cons.1 he with rfl | he
                  · exact ⟨s, by simp, hpat⟩
                  · obtain ⟨s', h1, h2⟩ := hL.from_ e he; exact ⟨s', by simp [h1], h2⟩
                · refine List.pairwise_cons.2 ⟨?_, hL.nodup⟩
                  intro e he heq
                  obtain ⟨s', h1, h2⟩ := hL.from_ e he
                  rw [hpat, h2] at heq
                  have hm : s' ∈ (extend cond s').sels := ((extend_spec hB.sel hc (hsF' s' h1)).2.1 s').2 (Or.inr (by simp))
                  rw [← heq, e2 s'] at hm
                  rcases hm with hm | hm
                  · exact hdis s' (by simp [h1]) hm
                  · rw [List.mem_singleton] at hm
                    rw [hm] at h1
                    exact (List.nodup_cons.1 hnd).1 h1
                · cases kept with
                  | true => simpa using hL.new_sub
                  | false => simpa using hL.new_sub.cons s
                · intro o' s' hm
                  cases kept with
                  | true =>
                    simp only [if_true, List.mem_cons, Prod.mk.injEq] at hm
                    rcases hm with ⟨rfl, rfl⟩ | hm
                    · exact ⟨ho, hO⟩
                    · exact hL.new_oe o' s' hm
                  | false =>
                    simp only [Bool.false_eq_true, if_false] at hm
                    exact hL.new_oe o' s' hm
                · intro s' hs' ho'
                  rcases List.mem_cons.1 hs' with rfl | hs'
                  · exact ⟨en, by simp, hpat⟩
                  · obtain ⟨e, h1, h2⟩ := hL.all s' hs' ho'; exact ⟨e, by simp [h1], h2⟩
                · intro hm s' hs' ho' hnn
                  rcases List.mem_cons.1 hs' with rfl | hs'
                  · cases kept with
                    | true => simp at hnn
                    | false =>
                      refine ⟨o, hO, ?_⟩
                      have hsp := (handle_spec (v := cfg.variant) (st := st) (goodCand (exact_real ha hex)) hn hst.inv).1 _ _ hh
                      have := hsp.bestOe rfl
                      simp only at this
                      rw [hoe'] at this
                      exact (run_bestF hn ha hm hL.run hst1 hL.exact).1 o this
                  · refine hL.out hm s' hs' ho' (fun hh' => hnn ?_)
                    cases kept with
                    | true => simp only [if_true, List.map_cons]; exact List.mem_cons_of_mem _ hh'
                    | false => simpa using hh'
      · intro hno
        obtain ⟨⟨q, hQ⟩, ⟨o, hO⟩⟩ := hno.1 _ hdesc ho
        rw [hQ, hO]
        simp only
        have hex := entry_exact (cfg := cfg) hB.sel e1 hne ho hQ hO
        rw [ones_bitsFor_pos, ones_bitsFor_neg] at hex
        generalize hen : (⟨q, extend cond s, bitsFor df (posRows df target) (extend cond s).sels ++ bitsFor df (negRows df target) (extend cond s).sels, o,
          tpOf df target (extend cond s).sels, fpOf df target (extend cond s).sels⟩ : BSDEntry) = en at hex ⊢
        have b1 : bitsFor df (posRows df target) (extend cond s).sels = en.bits.take (nP df target) := by
          rw [← hen]; simp only; rw [List.take_left' (length_bitsFor _ _)]
        have b2 : bitsFor df (negRows df target) (extend cond s).sels = en.bits.drop (nP df target) := by
          rw [← hen]; simp only; rw [List.drop_left' (length_bitsFor _ _)]
        rw [b1, b2]
        obtain ⟨⟨st1, kept⟩, hh⟩ := (handle_spec (v := cfg.variant) (st := st) (goodCand (exact_real ha hex)) hn hst.inv).2 hno.2
        simp only at hh
        rw [hh]
        simp only
        have hrun1 : RunF cfg df target st [en] st1 := .handle hh (.nil _)
        have hst1 := run_ok hn ha hrun1 hst (by intro e he; rw [List.mem_singleton.1 he]; exact hex)
        obtain ⟨⟨st2, new2⟩, hl⟩ := (ihx _ hst1).2 hno
        rw [hl]
        exact ⟨_, rfl⟩

/-! ## the recursion -/

theorem removeSel_ok {s : Selector} {l : List Selector} (hl : ∀ t ∈ l, TextEq t) (hs : s ∈ l) : BSDConfig.removeSel s l = .ok (l.erase s) := by
  induction l with
  | nil => simp at hs
  | cons t l ih =>
    unfold BSDConfig.removeSel
    by_cases h : t = s
    · rw [if_pos (by rw [h]; exact (Selector.eq_iff_key s s).2 rfl), h, List.erase_cons_head]
    · have hs' : s ∈ l := by
        rcases List.mem_cons.1 hs with hh | hh
        · exact absurd hh.symm h
        · exact hh
      rw [if_neg (fun hh => h (TextEq.key_inj (hl t (by simp)) (hl s hs) ((Selector.eq_iff_key t s).1 hh)))]
      rw [ih (fun t' h' => hl t' (by simp [h'])) hs', List.erase_cons_tail (by simpa using h)]

/-- what the search from a pattern with some selectors does; `d` is the depth that remains -/
structure SearchSpec (cfg : BSDConfig) (df : Frame) (target : Str × Str) (d : Nat) (cond : Pattern) (sel : List Selector) (st st' : BSDState)
    (es : List BSDEntry) : Prop where
  run : RunF cfg df target st es st'
  exact : ∀ e ∈ es, ExactEntry cfg df target e
  above : ∀ e ∈ es, (∀ t ∈ cond.sels, t ∈ e.pat.sels) ∧ (∀ t ∈ e.pat.sels, t ∈ cond.sels ∨ t ∈ sel)
  length : ∀ e ∈ es, cond.sels.length < e.pat.sels.length ∧ e.pat.sels.length ≤ cond.sels.length + d + 1
  nodup : es.Pairwise (fun a b => a.pat.sels ≠ b.pat.sels)
  best : Mono cfg df target → BSDBounds cfg df target → ∀ (Z Y : List Selector) q, Z ≠ [] → Z.Nodup → (∀ z ∈ Z, z ∈ sel) → Z.length ≤ d + 1 →
    (∀ t, t ∈ Y ↔ t ∈ cond.sels ∨ t ∈ Z) → OccursIn df Y → bsdQuality cfg df target Y = .ok q → BestGe st' q

/-- what the second loop does; `aux` are the selectors that remain -/
structure BranchSpec (cfg : BSDConfig) (df : Frame) (target : Str × Str) (d : Nat) (cond : Pattern) (rest : List (Rat × Selector)) (aux : List Selector)
    (st st' : BSDState) (es : List BSDEntry) : Prop where
  run : RunF cfg df target st es st'
  exact : ∀ e ∈ es, ExactEntry cfg df target e
  above : ∀ e ∈ es, (∀ t ∈ cond.sels, t ∈ e.pat.sels) ∧ (∀ t ∈ e.pat.sels, t ∈ cond.sels ∨ t ∈ aux)
  length : ∀ e ∈ es, cond.sels.length + 2 ≤ e.pat.sels.length ∧ e.pat.sels.length ≤ cond.sels.length + d + 2
  nodup : es.Pairwise (fun a b => a.pat.sels ≠ b.pat.sels)
  best : Mono cfg df target → BSDBounds cfg df target → ∀ (Z Y : List Selector) q, 2 ≤ Z.length → Z.Nodup → (∀ z ∈ Z, z ∈ aux) → (∃ z ∈ Z, z ∈ rest.map (·.2)) → Z.length ≤ d + 2 →
    (∀ t, t ∈ Y ↔ t ∈ cond.sels ∨ t ∈ Z) → OccursIn df Y → bsdQuality cfg df target Y = .ok q → BestGe st' q

theorem branch_spec (hn : 0 < cfg.num) (ha : BSDAbove cfg df target) {B : Dict Bits × Dict Bits} {F : List Selector} (hB : BitsOK B df target F)
    {cond : Pattern} (hc : CondOK F cond) (d : Nat) {call : Pattern → List Selector → Bits → Bits → BSDState → Except PyErr BSDState}
    (hcall : ∀ cond' sel st, CondOK F cond' → (∀ s ∈ sel, s ∈ F) → sel.Nodup → (∀ s ∈ sel, s ∉ cond'.sels) → StOK cfg df target st →
      (∀ st', call cond' sel (bitsFor df (posRows df target) cond'.sels) (bitsFor df (negRows df target) cond'.sels) st = .ok st' →
        ∃ es, SearchSpec cfg df target d cond' sel st st' es) ∧
      (BSDNoErr cfg df target → ∃ st', call cond' sel (bitsFor df (posRows df target) cond'.sels) (bitsFor df (negRows df target) cond'.sels) st = .ok st'))
    (rest : List (Rat × Selector)) (aux : List Selector) (haF : ∀ s ∈ aux, s ∈ F) (hnd : aux.Nodup) (hdis : ∀ s ∈ aux, s ∉ cond.sels)
    (hra : ∀ s ∈ rest.map (·.2), s ∈ aux) (hrn : (rest.map (·.2)).Nodup)
    (hro : ∀ o s, (o, s) ∈ rest → bsdEstimate cfg df target (extend cond s).sels = .ok o)
    (st : BSDState) (hst : StOK cfg df target st) :
    (∀ st', BSDConfig.branch B call cond (bitsFor df (posRows df target) cond.sels) (bitsFor df (negRows df target) cond.sels) rest aux st = .ok st' →
      ∃ es, BranchSpec cfg df target d cond rest aux st st' es) ∧
    (BSDNoErr cfg df target → ∃ st', BSDConfig.branch B call cond (bitsFor df (posRows df target) cond.sels) (bitsFor df (negRows df target) cond.sels) rest aux st = .ok st') := by
  induction rest generalizing aux st with
  | nil =>
    refine ⟨?_, fun _ => ⟨_, rfl⟩⟩
    intro st' h
    cases h
    exact ⟨[], .nil _, by simp, by simp, by simp, by simp, by simp⟩
  | cons os rest ih =>
    obtain ⟨o, s⟩ := os
    have hsaux : s ∈ aux := hra s (by simp)
    have hsF := haF s hsaux
    obtain ⟨e1, e2, e3⟩ := extend_spec hB.sel hc hsF
    have e3 := e3 (hdis s hsaux)
    have hcons : ∃ e0 k', st.k = e0 :: k' := by
      rcases hst.inv.shape with h | ⟨h, _⟩
      · exact ⟨_, _, h⟩
      · cases hh : st.k with
        | nil => exact absurd hh h
        | cons a b => exact ⟨a, b, rfl⟩
    obtain ⟨e0, k', hke⟩ := hcons
    have hro' : ∀ o s, (o, s) ∈ rest → bsdEstimate cfg df target (extend cond s).sels = .ok o := fun o s h => hro o s (by simp [h])
    have hrn' := List.nodup_cons.1 hrn
    have hsr : s ∉ rest.map (·.2) := hrn'.1
    have hdesc : Describes target (extend cond s).sels :=
      ⟨List.ne_nil_of_mem ((e2 s).2 (Or.inr (by simp))), fun t ht => hB.sel t (e1.2 t ht)⟩
    unfold BSDConfig.branch
    simp only [hke]
    by_cases hgt : o > e0.quality
    · simp only [if_pos hgt]
      rw [removeSel_ok (fun t ht => (hB.sel t (haF t ht)).2) hsaux, hB.pos s hsF, hB.neg s hsF]
      simp only
      rw [logicalAnd_eq (by simp only [length_bitsFor]), logicalAnd_eq (by simp only [length_bitsFor])]
      simp only
      rw [bitsFor_and e2, bitsFor_and e2]
      have haux' : ∀ t ∈ aux.erase s, t ∈ aux := fun t ht => List.mem_of_mem_erase ht
      have hsn : s ∉ aux.erase s := fun h => by
        rw [hnd.mem_erase_iff] at h; exact h.1 rfl
      have hmem : ∀ t, t ∈ aux → t ≠ s → t ∈ aux.erase s := fun t ht hts => (List.mem_erase_of_ne hts).2 ht
      obtain ⟨c1, c2⟩ := hcall (extend cond s) (aux.erase s) st e1 (fun t ht => haF t (haux' t ht)) (hnd.erase s) (by
        intro t ht hh
        rcases (e2 t).1 hh with h | h
        · exact hdis t (haux' t ht) h
        · rw [List.mem_singleton] at h
          rw [h] at ht; exact hsn ht) hst
      have ihx := fun st1 => ih (aux.erase s) (fun t ht => haF t (haux' t ht)) (hnd.erase s) (fun t ht => hdis t (haux' t ht))
        (fun t ht => hmem t (hra t (List.mem_cons_of_mem _ ht)) (fun h => hsr (h ▸ ht))) hrn'.2 hro' st1
      constructor
      · intro st' h
        cases hcl : call (extend cond s) (aux.erase s) (bitsFor df (posRows df target) (extend cond s).sels) (bitsFor df (negRows df target) (extend cond s).sels) st with
        | error e => rw [hcl] at h; cases h
        | ok st1 =>
          rw [hcl] at h
          simp only at h
          obtain ⟨es1, hS⟩ := c1 st1 hcl
          have hst1 := run_ok hn ha hS.run hst hS.exact
          obtain ⟨es2, hR⟩ := (ihx st1 hst1).1 st' h
          refine ⟨es1 ++ es2, hS.run.trans hR.run, ?_, ?_, ?_, ?_, ?_⟩
          · intro e he
            rcases List.mem_append.1 he with he | he
            · exact hS.exact e he
            · exact hR.exact e he
          · intro e he
            rcases List.mem_append.1 he with he | he
            · obtain ⟨g1, g2⟩ := hS.above e he
              refine ⟨fun t ht => g1 t ((e2 t).2 (Or.inl ht)), fun t ht => ?_⟩
              rcases g2 t ht with h | h
              · rcases (e2 t).1 h with h | h
                · exact Or.inl h
                · rw [List.mem_singleton] at h; rw [h]; exact Or.inr hsaux
              · exact Or.inr (haux' t h)
            · obtain ⟨g1, g2⟩ := hR.above e he
              refine ⟨g1, fun t ht => ?_⟩
              rcases g2 t ht with h | h
              · exact Or.inl h
              · exact Or.inr (haux' t h)
          · intro e he
            rcases List.mem_append.1 he with he | he
            · have := hS.length e he
              rw [e3] at this
              omega
            · exact hR.length e he
          · rw [List.pairwise_append]
            refine ⟨hS.nodup, hR.nodup, ?_⟩
            intro a ha' b hb heq
            have h1 : s ∈ a.pat.sels := (hS.above a ha').1 s ((e2 s).2 (Or.inr (by simp)))
            rw [heq] at h1
            rcases (hR.above b hb).2 s h1 with h | h
            · exact hdis s hsaux h
            · exact hsn h
          · intro hm hv Z Y q h2 hZn hZa hZr hZl hY hoc hq
            by_cases hsZ : s ∈ Z
            · have : BestGe st1 q := by
                refine hS.best hm hv (Z.erase s) Y q ?_ (hZn.erase s) ?_ ?_ ?_ hoc hq
                · intro hh
                  have := List.length_erase_of_mem hsZ
                  rw [hh] at this
                  simp at this; omega
                · intro z hz
                  exact hmem z (hZa z (List.mem_of_mem_erase hz)) (fun h => by rw [h, hZn.mem_erase_iff] at hz; exact hz.1 rfl)
                · rw [List.length_erase_of_mem hsZ]; omega
                · intro t
                  rw [hY t, e2 t, List.mem_singleton, hZn.mem_erase_iff]
                  constructor
                  · rintro (h | h)
                    · exact Or.inl (Or.inl h)
                    · by_cases hts : t = s
                      · exact Or.inl (Or.inr hts)
                      · exact Or.inr ⟨hts, h⟩
                  · rintro ((h | h) | h)
                    · exact Or.inl h
                    · rw [h]; exact Or.inr hsZ
                    · exact Or.inr h.2
              exact (run_bestF hn ha hm hR.run hst1 hR.exact).1 q this
            · refine hR.best hm hv Z Y q h2 hZn (fun z hz => hmem z (hZa z hz) (fun h => hsZ (h ▸ hz))) ?_ hZl hY hoc hq
              obtain ⟨z, hz, hzr⟩ := hZr
              refine ⟨z, hz, ?_⟩
              rcases List.mem_cons.1 hzr with h | h
              · exact absurd ((show z = s from h) ▸ hz) hsZ
              · exact h
      · intro hno
        obtain ⟨st1, hcl⟩ := c2 hno
        obtain ⟨es1, hS⟩ := c1 st1 hcl
        have hst1 := run_ok hn ha hS.run hst hS.exact
        rw [hcl]
        exact (ihx st1 hst1).2 hno
    · simp only [if_neg hgt]
      have hst1 : StOK cfg df target { st with pruned := st.pruned + 1, unselected := st.unselected + 1, branches := st.branches + 1 } := ⟨hst.inv, hst.exact⟩
      obtain ⟨i1, i2⟩ := ih aux haF hnd hdis (fun t ht => hra t (List.mem_cons_of_mem _ ht)) hrn'.2 hro' _ hst1
      rw [hke] at i1 i2
      refine ⟨?_, i2⟩
      intro st' h
      obtain ⟨es, hR⟩ := i1 st' h
      have hrun := hR.run
      rw [← hke] at hrun
      refine ⟨es, .prune hrun, hR.exact, hR.above, hR.length, hR.nodup, ?_⟩
      intro hm hv Z Y q h2 hZn hZa hZr hZl hY hoc hq
      by_cases hsZ : s ∈ Z
      · have hle : q ≤ o := by
          refine hv (extend cond s).sels Y o q hdesc ?_ hoc (hro o s (by simp)) hq
          intro t ht
          rw [hY t]
          rcases (e2 t).1 ht with h | h
          · exact Or.inl h
          · rw [List.mem_singleton] at h; rw [h]; exact Or.inr hsZ
        refine (run_bestF hn ha hm hrun hst1 hR.exact).1 q ⟨e0, ?_, hle.trans (not_lt.1 hgt)⟩
        simp only [hke]
        exact List.mem_cons_self
      · refine hR.best hm hv Z Y q h2 hZn hZa ?_ hZl hY hoc hq
        obtain ⟨z, hz, hzr⟩ := hZr
        refine ⟨z, hz, ?_⟩
        rcases List.mem_cons.1 hzr with h | h
        · exact absurd ((show z = s from h) ▸ hz) hsZ
        · exact h

/-- the best quality bounds that of the patterns with one more selector -/
theorem level_best (hn : 0 < cfg.num) (ha : BSDAbove cfg df target) {cond : Pattern} {sel : List Selector} {st st' : BSDState}
    {new : List (Rat × Selector)} {es : List BSDEntry} (hst : StOK cfg df target st) {F : List Selector} (hF : ∀ s ∈ F, IsSel target s) (hc : CondOK F cond) (hsF : ∀ s ∈ sel, s ∈ F)
    (hL : LevelSpec cfg df target cond sel st st' new es) (hm : Mono cfg df target) (hv : BSDBounds cfg df target)
    {z : Selector} {Y : List Selector} {q : Rat} (hz : z ∈ sel) (hY : ∀ t, t ∈ Y ↔ t ∈ cond.sels ∨ t ∈ [z]) (hoc : OccursIn df Y)
    (hq : bsdQuality cfg df target Y = .ok q) : BestGe st' q := by
  obtain ⟨e1, e2, _⟩ := extend_spec hF hc (hsF z hz)
  have hYe : ∀ t, t ∈ Y ↔ t ∈ (extend cond z).sels := fun t => by rw [hY t, e2 t]
  have hoc' : OccursIn df (extend cond z).sels := by
    obtain ⟨i, hi, h⟩ := hoc; exact ⟨i, hi, (covers_congr hYe i).1 h⟩
  obtain ⟨e, he, hp⟩ := hL.all z hz hoc'
  have hex := hL.exact e he
  have hqe : q = e.quality := by
    have := hex.quality
    rw [hp, ← quality_congr hYe, hq] at this
    exact Except.ok.inj this
  rw [hqe]
  exact (run_bestF hn ha hm hL.run hst hL.exact).2 e he (hv _ _ _ _ hex.describes (fun s h => h) hex.occurs hex.estimate hex.quality)

theorem list_one {α : Type} {l : List α} (h : l ≠ []) (h1 : l.length ≤ 1) : ∃ a, l = [a] := by
  match l, h, h1 with
  | [a], _, _ => exact ⟨a, rfl⟩

theorem search_spec (hn : 0 < cfg.num) (ha : BSDAbove cfg df target) {B : Dict Bits × Dict Bits} {F : List Selector} (hB : BitsOK B df target F)
    (d : Nat) (cond : Pattern) (sel : List Selector) (st : BSDState) (hc : CondOK F cond) (hsF : ∀ s ∈ sel, s ∈ F) (hnd : sel.Nodup)
    (hdis : ∀ s ∈ sel, s ∉ cond.sels) (hst : StOK cfg df target st) :
    (∀ st', cfg.search B (tpOf df target []) (fpOf df target []) d cond sel (bitsFor df (posRows df target) cond.sels) (bitsFor df (negRows df target) cond.sels) st = .ok st' →
        ∃ es, SearchSpec cfg df target d cond sel st st' es) ∧
    (BSDNoErr cfg df target → ∃ st', cfg.search B (tpOf df target []) (fpOf df target []) d cond sel (bitsFor df (posRows df target) cond.sels) (bitsFor df (negRows df target) cond.sels) st = .ok st') := by
  induction d generalizing cond sel st with
  | zero =>
    obtain ⟨l1, l2⟩ := level_spec hn ha hB hc sel hsF hnd hdis st hst
    unfold BSDConfig.search
    constructor
    · intro st' h
      cases hl : cfg.level B (tpOf df target []) (fpOf df target []) cond (bitsFor df (posRows df target) cond.sels) (bitsFor df (negRows df target) cond.sels) sel st with
      | error e => rw [hl] at h; cases h
      | ok r =>
        obtain ⟨st1, new⟩ := r
        rw [hl] at h
        cases h
        obtain ⟨es, hL⟩ := l1 _ new hl
        refine ⟨es, hL.run, hL.exact, ?_, ?_, hL.nodup, ?_⟩
        · intro e he
          obtain ⟨s, hs, hp⟩ := hL.from_ e he
          obtain ⟨_, e2, _⟩ := extend_spec hB.sel hc (hsF s hs)
          rw [hp]
          refine ⟨fun t ht => (e2 t).2 (Or.inl ht), fun t ht => ?_⟩
          rcases (e2 t).1 ht with h | h
          · exact Or.inl h
          · rw [List.mem_singleton.1 h]; exact Or.inr hs
        · intro e he
          obtain ⟨s, hs, hp⟩ := hL.from_ e he
          obtain ⟨_, _, e3⟩ := extend_spec hB.sel hc (hsF s hs)
          rw [hp, e3 (hdis s hs)]; omega
        · intro hm hv Z Y q hZ hZn hZs hZl hY hoc hq
          obtain ⟨z, rfl⟩ := list_one hZ hZl
          exact level_best hn ha hst hB.sel hc hsF hL hm hv (hZs z (by simp)) hY hoc hq
    · intro hno
      obtain ⟨⟨st1, new⟩, hl⟩ := l2 hno
      rw [hl]; exact ⟨_, rfl⟩
  | succ d ih =>
    obtain ⟨l1, l2⟩ := level_spec hn ha hB hc sel hsF hnd hdis st hst
    unfold BSDConfig.search
    have hbr : ∀ st1 new es, LevelSpec cfg df target cond sel st st1 new es → _ := fun st1 new es hL => by
      have hperm := stableSort_perm (le := fun a b => !BSDConfig.tupleLt a b) new
      have hsub : ∀ s, s ∈ (stableSort (fun a b => !BSDConfig.tupleLt a b) new).map (·.2) ↔ s ∈ new.map (·.2) := fun s => (hperm.map _).mem_iff
      have hss : ∀ s ∈ (stableSort (fun a b => !BSDConfig.tupleLt a b) new).map (·.2), s ∈ sel := fun s hs => hL.new_sub.subset ((hsub s).1 hs)
      have hnn : ((stableSort (fun a b => !BSDConfig.tupleLt a b) new).map (·.2)).Nodup := (hperm.map _).nodup_iff.2 (hnd.sublist hL.new_sub)
      exact branch_spec hn ha hB hc d (call := cfg.search B (tpOf df target []) (fpOf df target []) d)
        (fun cond' sel' st' h1 h2 h3 h4 h5 => ih cond' sel' st' h1 h2 h3 h4 h5)
        (stableSort (fun a b => !BSDConfig.tupleLt a b) new) ((stableSort (fun a b => !BSDConfig.tupleLt a b) new).map (·.2))
        (fun s hs => hsF s (hss s hs)) hnn (fun s hs => hdis s (hss s hs)) (fun s hs => hs) hnn
        (fun o s hm => (hL.new_oe o s (hperm.mem_iff.1 hm)).2) st1 (run_ok hn ha hL.run hst hL.exact)
    constructor
    · intro st' h
      cases hl : cfg.level B (tpOf df target []) (fpOf df target []) cond (bitsFor df (posRows df target) cond.sels) (bitsFor df (negRows df target) cond.sels) sel st with
      | error e => rw [hl] at h; cases h
      | ok r =>
        obtain ⟨st1, new⟩ := r
        rw [hl] at h
        simp only at h
        obtain ⟨es1, hL⟩ := l1 st1 new hl
        have hst1 := run_ok hn ha hL.run hst hL.exact
        obtain ⟨es2, hR⟩ := (hbr st1 new es1 hL).1 st' h
        have hperm := stableSort_perm (le := fun a b => !BSDConfig.tupleLt a b) new
        have hsub : ∀ s, s ∈ (stableSort (fun a b => !BSDConfig.tupleLt a b) new).map (·.2) ↔ s ∈ new.map (·.2) := fun s => (hperm.map _).mem_iff
        have hlen1 : ∀ e ∈ es1, e.pat.sels.length = cond.sels.length + 1 := by
          intro e he
          obtain ⟨s, hs, hp⟩ := hL.from_ e he
          obtain ⟨_, _, e3⟩ := extend_spec hB.sel hc (hsF s hs)
          rw [hp, e3 (hdis s hs)]
        refine ⟨es1 ++ es2, hL.run.trans hR.run, ?_, ?_, ?_, ?_, ?_⟩
        · intro e he
          rcases List.mem_append.1 he with he | he
          · exact hL.exact e he
          · exact hR.exact e he
        · intro e he
          rcases List.mem_append.1 he with he | he
          · obtain ⟨s, hs, hp⟩ := hL.from_ e he
            obtain ⟨_, e2, _⟩ := extend_spec hB.sel hc (hsF s hs)
            rw [hp]
            refine ⟨fun t ht => (e2 t).2 (Or.inl ht), fun t ht => ?_⟩
            rcases (e2 t).1 ht with h | h
            · exact Or.inl h
            · rw [List.mem_singleton.1 h]; exact Or.inr hs
          · obtain ⟨g1, g2⟩ := hR.above e he
            refine ⟨g1, fun t ht => ?_⟩
            rcases g2 t ht with h | h
            · exact Or.inl h
            · exact Or.inr (hL.new_sub.subset ((hsub t).1 h))
        · intro e he
          rcases List.mem_append.1 he with he | he
          · have := hlen1 e he; omega
          · have := hR.length e he; omega
        · rw [List.pairwise_append]
          refine ⟨hL.nodup, hR.nodup, ?_⟩
          intro a ha' b hb heq
          have h1 := hlen1 a ha'
          have h2 := (hR.length b hb).1
          rw [heq] at h1; omega
        · intro hm hv Z Y q hZ hZn hZs hZl hY hoc hq
          by_cases h1 : Z.length ≤ 1
          · obtain ⟨z, rfl⟩ := list_one hZ h1
            exact (run_bestF hn ha hm hR.run hst1 hR.exact).1 q
              (level_best hn ha hst hB.sel hc hsF hL hm hv (hZs z (by simp)) hY hoc hq)
          · by_cases hall : ∀ z ∈ Z, z ∈ new.map (·.2)
            · obtain ⟨z0, hz0⟩ := List.exists_mem_of_ne_nil Z hZ
              exact hR.best hm hv Z Y q (by omega) hZn (fun z hz => (hsub z).2 (hall z hz)) ⟨z0, hz0, (hsub z0).2 (hall z0 hz0)⟩ (by omega) hY hoc hq
            · push Not at hall
              obtain ⟨z, hz, hzn⟩ := hall
              obtain ⟨e1, e2, _⟩ := extend_spec hB.sel hc (hsF z (hZs z hz))
              have hsubY : ∀ t ∈ (extend cond z).sels, t ∈ Y := by
                intro t ht
                rw [hY t]
                rcases (e2 t).1 ht with h | h
                · exact Or.inl h
                · rw [List.mem_singleton.1 h]; exact Or.inr hz
              have hoc' : OccursIn df (extend cond z).sels := by
                obtain ⟨i, hi, h⟩ := hoc; exact ⟨i, hi, fun t ht => h t (hsubY t ht)⟩
              obtain ⟨o, ho, hb⟩ := hL.out hm z (hZs z hz) hoc' hzn
              have hle : q ≤ o := hv (extend cond z).sels Y o q
                ⟨List.ne_nil_of_mem ((e2 z).2 (Or.inr (by simp))), fun t ht => hB.sel t (e1.2 t ht)⟩ hsubY hoc ho hq
              obtain ⟨t, ht, hx⟩ := hb
              exact (run_bestF hn ha hm hR.run hst1 hR.exact).1 q ⟨t, ht, hle.trans hx⟩
    · intro hno
      obtain ⟨⟨st1, new⟩, hl⟩ := l2 hno
      obtain ⟨es1, hL⟩ := l1 st1 new hl
      rw [hl]
      exact (hbr st1 new es1 hL).2 hno

end BSD
end Verif

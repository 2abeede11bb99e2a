import Verif.Model.FloatReadPattern
import Verif.Props.FloatRead
import Verif.Props.Subgroup
/-! Property C114 for patterns and subgroups. -/
namespace Verif.Spec

/-- a selector that its printed form shows completely: the operator suits the value, no blank in the attribute name, and the value is a text, an integer, -0.0 or a float printed with a point -/
structure Shown (repr : Rat → Flt) (s : XSelector) : Prop where
  legal : XSelector.legal s.op s.val = true
  attr : ' ' ∉ s.attr
  notNan : s.val ≠ .nan
  notInf : s.val ≠ .pinf ∧ s.val ≠ .ninf
  float : ∀ f, s.val = .val (.flt f) → '.' ∈ f.str ∧ ∃ b, IsFloat64 b ∧ f = repr b

end Verif.Spec

namespace Verif.FloatRead
open Verif.Spec

theorem readVal_shown {repr : Rat → Flt} (hp : ShortestRepr repr) {v : XVal} (hn : v ≠ .nan) (h1 : v ≠ .pinf) (h2 : v ≠ .ninf)
    (hf : ∀ f, v = .val (.flt f) → '.' ∈ f.str ∧ ∃ b, IsFloat64 b ∧ f = repr b) : readVal repr (XSelector.valText v) = .ok v := by
  cases v with
  | nan => exact absurd rfl hn
  | pinf => exact absurd rfl h1
  | ninf => exact absurd rfl h2
  | nzero =>
    have e : XSelector.valText .nzero = c!"-0.0" := rfl
    have e2 : Selector.parseVal c!"-0.0" = .ok (.flt (mkFlt 0 0)) := by decide +kernel
    have e3 : Binary64.round (mkFlt 0 0).toRat = .fin 0 := by rw [toRat_mkFlt]; simpa using round_float ⟨0, 0, by norm_num, by norm_num, by norm_num, by norm_num⟩
    have e4 : (literal c!"-0.0").bind List.head? = some '-' := by decide +kernel
    unfold readVal
    rw [e, e2]
    simp only
    unfold floatValue
    rw [e3]
    simp only [e4, and_self, if_true]
  | val w =>
    show readVal repr (Selector.valText w) = _
    unfold readVal
    cases w with
    | str y => rw [Selector.parseVal_str]
    | int z => rw [Selector.parseVal_int]
    | flt f =>
      obtain ⟨hpt, b, hb, rfl⟩ := hf f rfl
      rw [Selector.parseVal_flt _ hpt]
      simp only
      unfold floatValue
      rw [hp.back b hb]
      simp only
      rw [if_neg]
      rintro ⟨hz, hm⟩
      subst hz
      rw [repr_zero hp] at hm
      revert hm
      decide +kernel

/-- **C114.** The printed form of such a selector is read as the same selector. -/
theorem C114_selector {repr : Rat → Flt} (hp : ShortestRepr repr) (s : XSelector) (h : Shown repr s) : generateFromStr repr s.str = .ok s := by
  rw [generate_of_no_blank repr s h.attr, readVal_shown hp h.notNan h.notInf.1 h.notInf.2 h.float]
  simp [h.legal]

theorem xstrLoop_eq (s : XSelector) (rest : List XSelector) :
    ∃ body, XPattern.strLoop (s :: rest) = body ++ c!"]" ∧
      ((∀ t ∈ s :: rest, ¬ Occurs c!", " t.str) → splitOn c!", " body = (s :: rest).map XSelector.str) := by
  induction rest generalizing s with
  | nil =>
    refine ⟨s.str, rfl, fun h => ?_⟩
    rw [splitOn_none (h s (by simp))]; rfl
  | cons t rest ih =>
    obtain ⟨body, h1, h2⟩ := ih t
    refine ⟨s.str ++ c!", " ++ body, ?_, fun h => ?_⟩
    · simp only [XPattern.strLoop, h1, List.append_assoc]
    · have := splitOn_first (c := ',') (sep' := c!" ") (by decide) s.str body (h s (by simp))
      rw [this, h2 (fun u hu => h u (by simp at hu ⊢; tauto))]; rfl

theorem xmapM_roundtrip {repr : Rat → Flt} (hp : ShortestRepr repr) (l : List XSelector) (h : ∀ s ∈ l, Shown repr s) :
    (l.map XSelector.str).mapM (generateFromStr repr) = .ok l := by
  induction l with
  | nil => rfl
  | cons s l ih => rw [List.map_cons, mapM_cons_eq, C114_selector hp s (h s (by simp)), ih (fun t ht => h t (by simp [ht]))]

theorem xstr_ne_nil (s : XSelector) : ∃ c cs, s.str = c :: cs := by
  unfold XSelector.str
  cases s.attr with
  | nil => exact ⟨_, _, rfl⟩
  | cons c cs => exact ⟨_, _, rfl⟩

theorem xpattern_generate {repr : Rat → Flt} (hp : ShortestRepr repr) (p : XPattern) (hsafe : ∀ s ∈ p.sels, Shown repr s) (hsep : ∀ s ∈ p.sels, ¬ Occurs c!", " s.str) :
    patternFromStr repr p.str = .ok (XPattern.new p.sels) := by
  unfold patternFromStr XPattern.str
  cases hps : p.sels with
  | nil => simp
  | cons s rest =>
    rw [hps] at hsafe hsep
    obtain ⟨body, h1, h2⟩ := xstrLoop_eq s rest
    have hbody : body ≠ [] := by
      intro hb
      subst hb
      have h3 := h2 hsep
      obtain ⟨c, cs, h4⟩ := xstr_ne_nil s
      have h5 : splitOn c!", " [] = [[]] := rfl
      rw [h5, List.map_cons, h4] at h3
      simp at h3
    have hne : ('[' :: XPattern.strLoop (s :: rest)) ≠ c!"[]" := by
      rw [h1]
      intro h
      simp only [List.cons.injEq, true_and] at h
      exact hbody (List.append_left_eq_self.1 h)
    rw [if_neg (by simp : ¬ (s :: rest).length = 0), if_neg hne, h1]
    simp only [List.tail_cons, List.dropLast_concat]
    rw [h2 hsep, xmapM_roundtrip hp _ hsafe]

/-- **C114.** A pattern with any history, whose selectors are shown completely by their printed forms and do not print `", "`, is read back as an equal pattern. -/
theorem C114_pattern {repr : Rat → Flt} (hp : ShortestRepr repr) (S : XSelector → Prop) (hS : XHomogeneous S) (hn : ∀ s, S s → s.val ≠ .nan) (init : List XSelector) (ops : List XPatOp)
    (hm : ∀ s ∈ xmentioned init ops, S s) (hsafe : ∀ s ∈ (xbothRun init ops).1.sels, Shown repr s) (hsep : ∀ s ∈ (xbothRun init ops).1.sels, ¬ Occurs c!", " s.str) :
    ∃ q, patternFromStr repr (xbothRun init ops).1.str = .ok q ∧ q.eq (xbothRun init ops).1 = true := by
  refine ⟨_, xpattern_generate hp _ hsafe hsep, ?_⟩
  obtain ⟨B, hB, hf⟩ := exists_fits (xmentioned init ops) (fun s hs => hn s (hm s hs))
  have h : Tame B (· ∈ xmentioned init ops) := ⟨hB, hf, fun a b ha hb => hS a b (hm a ha) (hm b hb)⟩
  obtain ⟨b1, b2, _⟩ := both_plain h init ops (fun s hs => hs)
  obtain ⟨n1, n2⟩ := h.new _ b2
  rw [← (h.patEq n2 b2).1]
  have hrun := run_inv h.image_homogeneous _ _ (mentioned_plain (B := B) init ops (fun s hs => hs))
  rw [← bothRun_fst, b1] at hrun
  obtain ⟨r1, r2⟩ := hrun
  have hlt : ∀ a b, Tame.image B (· ∈ xmentioned init ops) a → Tame.image B (· ∈ xmentioned init ops) b → (a.lt b = true ↔ a.key < b.key) :=
    fun a b ha hb => Selector.lt_iff_key (h.image_homogeneous a b ha hb)
  obtain ⟨m1, m2, m3⟩ := Pattern.new_spec hlt r1
  simp only at m1 m2 m3
  rw [n1] at m1 m2 m3
  rw [Pattern.eq_iff_keys]
  refine Pattern.sorted_keys_ext m1 r2 (fun k => ⟨?_, ?_⟩)
  · rintro ⟨t, ht, rfl⟩; exact ⟨t, m2 t ht, rfl⟩
  · rintro ⟨t, ht, rfl⟩; exact m3 t ht

/-- **C114.** The same for subgroups, when `", Target: "` is not printed within the description or the target. -/
theorem C114_subgroup {repr : Rat → Flt} (hp : ShortestRepr repr) (S : XSelector → Prop) (hS : XHomogeneous S) (hn : ∀ s, S s → s.val ≠ .nan) (init : List XSelector) (ops : List XPatOp)
    (hm : ∀ s ∈ xmentioned init ops, S s) (target : XSelector) (ht : Shown repr target) (hsafe : ∀ s ∈ (xbothRun init ops).1.sels, Shown repr s)
    (hsep : ∀ s ∈ (xbothRun init ops).1.sels, ¬ Occurs c!", " s.str)
    (hd : ¬ Occurs c!", Target: " (c!"Description: " ++ (xbothRun init ops).1.str)) (htt : ¬ Occurs c!", Target: " target.str) :
    ∃ t, subgroupFromStr repr (⟨(xbothRun init ops).1, target⟩ : XSubgroup).str = .ok t ∧ t.target = target ∧ t.description.eq (xbothRun init ops).1 = true ∧
      t.eq ⟨(xbothRun init ops).1, target⟩ = true := by
  obtain ⟨q, h1, h2⟩ := C114_pattern hp S hS hn init ops hm hsafe hsep
  have hsplit : splitOn c!", Target: " (c!"Description: " ++ (xbothRun init ops).1.str ++ c!", Target: " ++ target.str)
      = [c!"Description: " ++ (xbothRun init ops).1.str, target.str] := by
    have := splitOn_first (c := ',') (sep' := c!" Target: ") (by decide) _ target.str hd
    rw [this, splitOn_none htt]
  refine ⟨⟨q, target⟩, ?_, rfl, h2, ?_⟩
  · unfold subgroupFromStr XSubgroup.str
    simp only
    rw [hsplit]
    simp only [C114_selector hp target ht]
    have : (c!"Description: " ++ (xbothRun init ops).1.str).drop 13 = (xbothRun init ops).1.str := rfl
    rw [this, h1]
  · have he : target.eq target = true := by
      unfold XSelector.eq
      simp [XVal.eq_self _ ht.notNan, Op.eq]
    simp [XSubgroup.eq, h2, he]

/-- two subgroups are equal exactly when both parts are -/
theorem C114_subgroup_eq (s t : XSubgroup) : s.eq t = true ↔ s.description.eq t.description = true ∧ s.target.eq t.target = true := by
  unfold XSubgroup.eq
  rw [Bool.and_eq_true]

/-- what has been read is shown completely, unless it is infinite or has no point in its printed form: these selectors, and so patterns of them, meet the hypotheses above -/
theorem C114_shown (repr : Rat → Flt) (x : Str) (s : XSelector) (h : generateFromStr repr x = .ok s) (h1 : s.val ≠ .pinf) (h2 : s.val ≠ .ninf)
    (h3 : ∀ f, s.val = .val (.flt f) → '.' ∈ f.str) : Shown repr s := by
  have ha := generate_attr h
  have hval : (∃ t, readVal repr t = .ok s.val) ∧ XSelector.legal s.op s.val = true := by
    unfold generateFromStr at h
    split at h
    · cases h
    · split at h
      split at h
      · cases h
      · split at h
        · cases h
        · rename_i t _
          split at h
          · cases h
          · rename_i v hv
            split at h
            · cases h
            · rename_i hl
              cases h
              exact ⟨⟨t, hv⟩, by simpa using hl⟩
  obtain ⟨⟨t, ht⟩, hl⟩ := hval
  have key : s.val ≠ .nan ∧ ∀ f, s.val = .val (.flt f) → ∃ b, IsFloat64 b ∧ f = repr b := by
    unfold readVal at ht
    cases hpv : Selector.parseVal t with
    | error e => rw [hpv] at ht; cases ht
    | ok v =>
      rw [hpv] at ht
      cases v with
      | str y => simp only [Except.ok.injEq] at ht; rw [← ht]; simp
      | int z => simp only [Except.ok.injEq] at ht; rw [← ht]; simp
      | flt f =>
        simp only [Except.ok.injEq] at ht
        unfold floatValue at ht
        obtain ⟨c1, _, _, c4⟩ := C103_rounding f.toRat
        cases hr : Binary64.round f.toRat with
        | inf => rw [hr] at ht; exact absurd ht.symm h1
        | ninf => rw [hr] at ht; exact absurd ht.symm h2
        | nan => exact absurd hr c4
        | fin b =>
          rw [hr] at ht
          simp only at ht
          split at ht
          · rw [← ht]; simp
          · rw [← ht]
            refine ⟨by simp, fun g hg => ?_⟩
            cases hg
            exact ⟨b, (c1 b hr).float, rfl⟩
  exact ⟨hl, ha, key.1, ⟨h1, h2⟩, fun f hf => ⟨h3 f hf, key.2 f hf⟩⟩

/-- a pattern with `0.1`, `-0.0` and a text: printed and read back -/
example {repr : Rat → Flt} (hp : ShortestRepr repr) :
    patternFromStr repr c!"[a <= 0.1, b = 'x', c > -0.0]" = .ok ⟨[⟨c!"a", .lessOrEqual, .val (.flt (mkFlt 1 (-1)))⟩, ⟨c!"b", .equal, .val (.str c!"x")⟩, ⟨c!"c", .greater, .nzero⟩]⟩ ∧
    XPattern.str ⟨[⟨c!"a", .lessOrEqual, .val (.flt (mkFlt 1 (-1)))⟩, ⟨c!"b", .equal, .val (.str c!"x")⟩, ⟨c!"c", .greater, .nzero⟩]⟩ = c!"[a <= 0.1, b = 'x', c > -0.0]" := by
  have g1 : generateFromStr repr c!"a <= 0.1" = .ok ⟨c!"a", .lessOrEqual, .val (.flt (mkFlt 1 (-1)))⟩ := by
    have := generate_parts repr c!"a" .lessOrEqual c!"0.1" (by decide)
    rw [C114_tenth hp] at this
    exact this
  have g2 : generateFromStr repr c!"b = 'x'" = .ok ⟨c!"b", .equal, .val (.str c!"x")⟩ :=
    ((C114_other repr c!"b = 'x'").2.1 c!"b" .equal (.str c!"x") (by simp)).2 (by decide +kernel)
  have g3 : generateFromStr repr c!"c > -0.0" = .ok ⟨c!"c", .greater, .nzero⟩ :=
    C114_selector hp ⟨c!"c", .greater, .nzero⟩ ⟨by decide, by decide, by decide, by decide, by simp⟩
  refine ⟨?_, by decide +kernel⟩
  unfold patternFromStr
  have e : splitOn c!", " (c!"[a <= 0.1, b = 'x', c > -0.0]").tail.dropLast = [c!"a <= 0.1", c!"b = 'x'", c!"c > -0.0"] := by decide +kernel
  rw [if_neg (by decide), e, mapM_cons_eq, g1, mapM_cons_eq, g2, mapM_cons_eq, g3, List.mapM_nil]
  simp only [pure, Except.pure]
  decide +kernel

end Verif.FloatRead

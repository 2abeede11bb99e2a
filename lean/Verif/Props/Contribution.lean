import Verif.Lemmas.Credibility
import Verif.Lemmas.SDMap
/-! C48 (selector contribution). -/
namespace Verif
open Spec

namespace Spec
/-- `r` is the ratio of the greatest contribution `m` to the least one `a`: infinite when the least is 0, and 1 when both are infinite -/
def IsContributionRatio (m a r : XF) : Prop :=
  (a = .fin 0 → r = .inf) ∧ (a = .inf → r = .fin 1) ∧
  (∀ x y : Rat, a = .fin x → x ≠ 0 → m = .fin y → r = .fin (y / x)) ∧
  (∀ x : Rat, a = .fin x → 0 < x → m = .inf → r = .inf) ∧
  (∀ x : Rat, a = .fin x → x < 0 → m = .inf → r = .ninf) ∧
  (a = .ninf → r = .fin 0 ∨ r = .nan)
end Spec

section
variable (c : Selector → XF)

/-- the running minimum and maximum, `nan`s skipped -/
theorem fold_minmax (l : List Selector) (mn mx : XF) (hmn : mn ≠ .nan) (hmx : mx ≠ .nan) :
    let mn' := l.foldl (fun a s => a.pyMin (c s)) mn
    let mx' := l.foldl (fun a s => a.pyMax (c s)) mx
    mn' ≠ .nan ∧ mx' ≠ .nan ∧ mn'.le mn = true ∧ mx.le mx' = true ∧
      (∀ s ∈ l, c s ≠ .nan → mn'.le (c s) = true ∧ (c s).le mx' = true) ∧
      (mn' = mn ∨ ∃ s ∈ l, c s ≠ .nan ∧ mn' = c s) ∧ (mx' = mx ∨ ∃ s ∈ l, c s ≠ .nan ∧ mx' = c s) := by
  induction l generalizing mn mx with
  | nil => exact ⟨hmn, hmx, XF.le_refl hmn, XF.le_refl hmx, by simp, .inl rfl, .inl rfl⟩
  | cons s l ih =>
    have a1 : (mn.pyMin (c s)) ≠ .nan ∧ (mn.pyMin (c s)).le mn = true ∧ (c s ≠ .nan → (mn.pyMin (c s)).le (c s) = true) ∧
        (mn.pyMin (c s) = mn ∨ (c s ≠ .nan ∧ mn.pyMin (c s) = c s)) := by
      unfold XF.pyMin
      split
      · rename_i h
        have hn := XF.ne_nan_of_le (XF.lt_le h)
        exact ⟨hn.1, XF.lt_le h, fun h' => XF.le_refl h', .inr ⟨hn.1, rfl⟩⟩
      · rename_i h
        refine ⟨hmn, XF.le_refl hmn, fun h' => ?_, .inl rfl⟩
        by_contra hc
        exact h ((XF.lt_iff h' hmn).2 hc)
    have a2 : (mx.pyMax (c s)) ≠ .nan ∧ mx.le (mx.pyMax (c s)) = true ∧ (c s ≠ .nan → (c s).le (mx.pyMax (c s)) = true) ∧
        (mx.pyMax (c s) = mx ∨ (c s ≠ .nan ∧ mx.pyMax (c s) = c s)) := by
      unfold XF.pyMax
      split
      · rename_i h
        have hn := XF.ne_nan_of_le (XF.lt_le h)
        exact ⟨hn.2, XF.lt_le h, fun h' => XF.le_refl h', .inr ⟨hn.2, rfl⟩⟩
      · rename_i h
        refine ⟨hmx, XF.le_refl hmx, fun h' => ?_, .inl rfl⟩
        by_contra hc
        exact h ((XF.lt_iff hmx h').2 hc)
    obtain ⟨b1, b2, b3, b4, b5, b6, b7⟩ := ih _ _ a1.1 a2.1
    simp only [List.foldl_cons]
    refine ⟨b1, b2, XF.le_trans b3 a1.2.1, XF.le_trans a2.2.1 b4, ?_, ?_, ?_⟩
    · intro t ht hn
      rcases List.mem_cons.1 ht with rfl | ht
      · exact ⟨XF.le_trans b3 (a1.2.2.1 hn), XF.le_trans (a2.2.2.1 hn) b4⟩
      · exact b5 t ht hn
    · rcases b6 with h | ⟨t, ht, h⟩
      · rcases a1.2.2.2 with h' | ⟨h', h''⟩
        · exact .inl (h.trans h')
        · exact .inr ⟨s, by simp, h', h.trans h''⟩
      · exact .inr ⟨t, by simp [ht], h⟩
    · rcases b7 with h | ⟨t, ht, h⟩
      · rcases a2.2.2.2 with h' | ⟨h', h''⟩
        · exact .inl (h.trans h')
        · exact .inr ⟨s, by simp, h', h.trans h''⟩
      · exact .inr ⟨t, by simp [ht], h⟩
end

/-- removing a selector of a pattern of texts gives the pattern of the others -/
theorem remove_new {X : List Selector} (hX : ∀ s ∈ X, TextEq s) {s : Selector} (hs : s ∈ X) :
    (Pattern.new X).copy.remove s = Pattern.new (X.filter (fun t => t ≠ s)) := by
  obtain ⟨h1, h2⟩ := new_text hX
  have hp : ∀ t ∈ (Pattern.new X).sels, TextEq t := fun t ht => hX t ((h2 t).1 ht)
  obtain ⟨r1, r2⟩ := Pattern.remove_spec (S := TextEq) (fun a b ha hb => TextEq.lt_key ha hb) (p := (Pattern.new X).copy) (x := s) hp (hX s hs) h1
  have hf : ∀ t ∈ X.filter (fun t => t ≠ s), TextEq t := fun t ht => hX t (List.mem_of_mem_filter ht)
  obtain ⟨f1, f2⟩ := new_text hf
  have hext : ((Pattern.new X).copy.remove s).sels = (Pattern.new (X.filter (fun t => t ≠ s))).sels := by
    apply sorted_ext r1 f1
    · intro t ht; exact hp t ((r2 t).1 ht).1
    · intro t
      rw [r2, f2]
      simp only [Pattern.copy, h2, List.mem_filter, decide_eq_true_eq]
      constructor
      · rintro ⟨a, b⟩; exact ⟨a, fun h => b (by rw [h])⟩
      · rintro ⟨a, b⟩; exact ⟨a, fun h => b (TextEq.key_inj (hX t a) (hX s hs) h)⟩
  cases h : (Pattern.new X).copy.remove s
  rw [h] at hext
  simp only at hext
  rw [hext]

/-- the loop without threshold -/
theorem loop_none (orOf : Pattern → Except PyErr XF) (p : Pattern) (o : XF) (w : Selector → XF) (l : List Selector)
    (hw : ∀ s ∈ l, orOf (p.copy.remove s) = .ok (w s)) (mn mx : XF) :
    SelectorContribution.loop orOf none p o l mn mx =
      .ok (.inr (l.foldl (fun a s => a.pyMin (o.sub (w s))) mn, l.foldl (fun a s => a.pyMax (o.sub (w s))) mx)) := by
  induction l generalizing mn mx with
  | nil => rfl
  | cons s l ih =>
    rw [SelectorContribution.loop, hw s (by simp)]
    simp only [Bool.false_eq_true, if_false]
    rw [ih (fun t ht => hw t (by simp [ht]))]
    rfl

/-- the loop with a threshold stops at the first contribution below it, if any -/
theorem loop_some (orOf : Pattern → Except PyErr XF) (t : XF) (p : Pattern) (o : XF) (w : Selector → XF) (l : List Selector)
    (hw : ∀ s ∈ l, orOf (p.copy.remove s) = .ok (w s)) (mn mx : XF) :
    (∀ s ∈ l, (o.sub (w s)).lt t = false) ∧ SelectorContribution.loop orOf (some t) p o l mn mx = SelectorContribution.loop orOf none p o l mn mx ∨
    ∃ s ∈ l, (o.sub (w s)).lt t = true ∧ SelectorContribution.loop orOf (some t) p o l mn mx = .ok (.inl (o.sub (w s), .inf)) := by
  induction l generalizing mn mx with
  | nil => exact .inl ⟨by simp, rfl⟩
  | cons s l ih =>
    cases hlt : (o.sub (w s)).lt t
    · have e1 : ∀ th, th = some t ∨ th = none → SelectorContribution.loop orOf th p o (s :: l) mn mx =
          SelectorContribution.loop orOf th p o l (mn.pyMin (o.sub (w s))) (mx.pyMax (o.sub (w s))) := by
        rintro th (rfl | rfl)
        · rw [SelectorContribution.loop, hw s (by simp)]; simp [hlt]
        · rw [SelectorContribution.loop, hw s (by simp)]; simp
      rcases ih (fun t ht => hw t (by simp [ht])) (mn.pyMin (o.sub (w s))) (mx.pyMax (o.sub (w s))) with ⟨h1, h2⟩ | ⟨x, hx, h1, h2⟩
      · refine .inl ⟨?_, by rw [e1 _ (.inl rfl), e1 _ (.inr rfl), h2]⟩
        intro x hx
        rcases List.mem_cons.1 hx with rfl | hx
        · exact hlt
        · exact h1 x hx
      · exact .inr ⟨x, by simp [hx], h1, by rw [e1 _ (.inl rfl), h2]⟩
    · refine .inr ⟨s, by simp, hlt, ?_⟩
      rw [SelectorContribution.loop, hw s (by simp)]
      simp [hlt]

theorem ratio_spec {mn mx : XF} (h1 : mn ≠ .nan) (h2 : mx ≠ .nan) (hle : mn.le mx = true) :
    ∃ r, SelectorContribution.ratio mn mx = .ok r ∧ IsContributionRatio mx mn r := by
  cases mn with
  | nan => exact absurd rfl h1
  | inf =>
    cases mx <;> simp_all [XF.le, SelectorContribution.ratio, XF.eqv, IsContributionRatio]
  | ninf =>
    cases mx <;> simp_all [SelectorContribution.ratio, XF.eqv, IsContributionRatio, XF.div]
  | fin x =>
    by_cases hx : x = 0
    · subst hx
      exact ⟨.inf, by simp [SelectorContribution.ratio, XF.eqv], by simp +contextual [IsContributionRatio]⟩
    · cases mx with
      | nan => exact absurd rfl h2
      | ninf => simp [XF.le] at hle
      | fin y =>
        refine ⟨.fin (y / x), by simp [SelectorContribution.ratio, XF.eqv, XF.div, hx], ?_⟩
        simp +contextual [IsContributionRatio, hx]
      | inf =>
        refine ⟨if 0 < x then .inf else .ninf, by simp [SelectorContribution.ratio, XF.eqv, XF.div, hx], ?_⟩
        simp only [IsContributionRatio, XF.fin.injEq]
        refine ⟨fun h => absurd h hx, fun h => by simp at h, fun _ _ _ _ h => by simp at h, ?_, ?_, fun h => by simp at h⟩
        · rintro z rfl hz _; rw [if_pos hz]
        · rintro z rfl hz _; rw [if_neg (not_lt.2 hz.le)]

/-- C48: the absolute contribution of a pattern of at least two selectors is the least of the differences between its odds ratio
and those of the patterns without one selector, and the contribution ratio is the greatest difference over the least one (when none of the
differences is the undefined difference of two infinities). -/
theorem C48_contribution (orOf : Pattern → Except PyErr XF) (X : List Selector) (hX : ∀ s ∈ X, TextEq s) (hlen : 2 ≤ (Pattern.new X).len)
    (o : XF) (w : Selector → XF) (ho : orOf (Pattern.new X) = .ok o)
    (hw : ∀ s ∈ X, orOf (Pattern.new (X.filter (fun t => t ≠ s))) = .ok (w s)) (hnan : ∀ s ∈ X, o.sub (w s) ≠ .nan) :
    ∃ a m r, SelectorContribution.compute orOf none (Pattern.new X) = .ok (a, r) ∧
      (∃ s ∈ X, a = o.sub (w s)) ∧ (∀ s ∈ X, Le a (o.sub (w s))) ∧
      (∃ s ∈ X, m = o.sub (w s)) ∧ (∀ s ∈ X, Le (o.sub (w s)) m) ∧ IsContributionRatio m a r := by
  obtain ⟨h1, h2⟩ := new_text hX
  have hw' : ∀ s ∈ (Pattern.new X).sels, orOf ((Pattern.new X).copy.remove s) = .ok (w s) := by
    intro s hs
    rw [remove_new hX ((h2 s).1 hs)]
    exact hw s ((h2 s).1 hs)
  have hfold := fold_minmax (fun s => o.sub (w s)) (Pattern.new X).sels .inf .ninf (by simp) (by simp)
  simp only at hfold
  obtain ⟨b1, b2, _, _, b5, b6, b7⟩ := hfold
  have hne : ∃ s, s ∈ (Pattern.new X).sels := by
    have : 0 < (Pattern.new X).sels.length := by simp only [Pattern.len] at hlen; omega
    exact ⟨_, List.getElem_mem this⟩
  obtain ⟨s0, hs0⟩ := hne
  have hn : ∀ s ∈ (Pattern.new X).sels, o.sub (w s) ≠ .nan := fun s hs => hnan s ((h2 s).1 hs)
  generalize hmn : (Pattern.new X).sels.foldl (fun (a : XF) s => a.pyMin (o.sub (w s))) XF.inf = mn at b1 b5 b6
  generalize hmx : (Pattern.new X).sels.foldl (fun (a : XF) s => a.pyMax (o.sub (w s))) XF.ninf = mx at b2 b5 b7
  obtain ⟨r, hr, hr'⟩ := ratio_spec b1 b2 (XF.le_trans (b5 s0 hs0 (hn s0 hs0)).1 (b5 s0 hs0 (hn s0 hs0)).2)
  refine ⟨mn, mx, r, ?_, ?_, ?_, ?_, ?_, hr'⟩
  · rw [SelectorContribution.compute, if_neg (by omega), if_neg (by omega), ho]
    simp only
    rw [loop_none orOf _ o w _ hw', hmn, hmx]
    simp only [hr]
  · rcases b6 with h | ⟨s, hs, _, h⟩
    · refine ⟨s0, (h2 _).1 hs0, ?_⟩
      have := (b5 s0 hs0 (hn s0 hs0)).1
      rw [h] at this ⊢
      exact XF.le_antisymm this (XF.le_inf (hn s0 hs0))
    · exact ⟨s, (h2 _).1 hs, h⟩
  · intro s hs
    have hs := (h2 s).2 hs
    exact (XF.le_iff _ _).1 (b5 s hs (hn s hs)).1
  · rcases b7 with h | ⟨s, hs, _, h⟩
    · refine ⟨s0, (h2 _).1 hs0, ?_⟩
      have := (b5 s0 hs0 (hn s0 hs0)).2
      rw [h] at this ⊢
      exact XF.le_antisymm (XF.ninf_le (hn s0 hs0)) this
    · exact ⟨s, (h2 _).1 hs, h⟩
  · intro s hs
    have hs := (h2 s).2 hs
    exact (XF.le_iff _ _).1 (b5 s hs (hn s hs)).2

/-- C48: with a threshold for the absolute contribution the verdict on that threshold is the same, and so are the two numbers when
the threshold is met; otherwise some contribution below the threshold is returned with an infinite ratio. -/
theorem C48_threshold (orOf : Pattern → Except PyErr XF) (X : List Selector) (hX : ∀ s ∈ X, TextEq s) (hlen : 2 ≤ (Pattern.new X).len)
    (o : XF) (w : Selector → XF) (ho : orOf (Pattern.new X) = .ok o)
    (hw : ∀ s ∈ X, orOf (Pattern.new (X.filter (fun t => t ≠ s))) = .ok (w s)) (hnan : ∀ s ∈ X, o.sub (w s) ≠ .nan)
    (t : Rat) (a r : XF) (hc : SelectorContribution.compute orOf none (Pattern.new X) = .ok (a, r)) :
    (Le (.fin t) a → SelectorContribution.compute orOf (some (.fin t)) (Pattern.new X) = .ok (a, r)) ∧
    (¬ Le (.fin t) a → ∃ s ∈ X, ¬ Le (.fin t) (o.sub (w s)) ∧
      SelectorContribution.compute orOf (some (.fin t)) (Pattern.new X) = .ok (o.sub (w s), .inf)) := by
  obtain ⟨h1, h2⟩ := new_text hX
  have hw' : ∀ s ∈ (Pattern.new X).sels, orOf ((Pattern.new X).copy.remove s) = .ok (w s) := by
    intro s hs
    rw [remove_new hX ((h2 s).1 hs)]
    exact hw s ((h2 s).1 hs)
  obtain ⟨a', m, r', c1, c2, c3, -, -, -⟩ := C48_contribution orOf X hX hlen o w ho hw hnan
  rw [c1] at hc
  simp only [Except.ok.injEq, Prod.mk.injEq] at hc
  obtain ⟨rfl, rfl⟩ := hc
  have hcomp : ∀ th, SelectorContribution.compute orOf th (Pattern.new X) =
      match SelectorContribution.loop orOf th (Pattern.new X) o (Pattern.new X).sels .inf .ninf with
      | .error e => .error e
      | .ok (.inl r) => .ok r
      | .ok (.inr (mn, mx)) => match SelectorContribution.ratio mn mx with
        | .error e => .error e
        | .ok r => .ok (mn, r) := by
    intro th
    rw [SelectorContribution.compute, if_neg (by omega), if_neg (by omega), ho]
    rfl
  have lt_iff : ∀ s ∈ X, (o.sub (w s)).lt (.fin t) = true ↔ ¬ Le (.fin t) (o.sub (w s)) := by
    intro s hs
    rw [XF.lt_iff (hnan s hs) (by simp), XF.le_iff]
  rcases loop_some orOf (.fin t) (Pattern.new X) o w _ hw' .inf .ninf with ⟨l1, l2⟩ | ⟨s, hs, l1, l2⟩
  · have hle : Le (.fin t) a' := by
      obtain ⟨s, hs, rfl⟩ := c2
      by_contra hcon
      have := (lt_iff s hs).2 hcon
      rw [l1 s ((h2 s).2 hs)] at this
      simp at this
    refine ⟨fun _ => ?_, fun h => absurd hle h⟩
    rw [hcomp, l2, ← hcomp, c1]
  · have hs' := (h2 s).1 hs
    have hns := (lt_iff s hs').1 l1
    refine ⟨fun h => ?_, fun _ => ⟨s, hs', hns, by rw [hcomp, l2]⟩⟩
    have := c3 s hs'
    rw [← XF.le_iff] at h this hns
    exact absurd (XF.le_trans h this) hns

/-- C48: the empty pattern contributes (0, 0), a single selector (1, 1). -/
theorem C48_short (orOf : Pattern → Except PyErr XF) (th : Option XF) (s : Selector) :
    SelectorContribution.compute orOf th (Pattern.new []) = .ok (.fin 0, .fin 0) ∧
    SelectorContribution.compute orOf th (Pattern.new [s]) = .ok (.fin 1, .fin 1) := by
  refine ⟨rfl, ?_⟩
  have h : (Pattern.new [s]).len = 1 := rfl
  rw [SelectorContribution.compute, if_neg (by omega), if_pos h]

/-- a table of two attributes that both single out the only positive row of two -/
def infApps : List (Selector × Bits) :=
  [(⟨c!"a", .equal, .str c!"x"⟩, [true, false]), (⟨c!"b", .equal, .str c!"y"⟩, [true, false])]

/-- C48 does not extend to infinite odds ratios: when the pattern and its generalisations have infinite odds ratios, no selector adds
anything, but the absolute contribution is infinite (so it meets every threshold), with an undefined ratio. -/
theorem C48_infinite_fails :
    (∀ X ∈ [[], [infApps.map (·.1)].flatten, [(⟨c!"a", .equal, .str c!"x"⟩ : Selector)], [⟨c!"b", .equal, .str c!"y"⟩]], X ≠ [] →
      SelectorContribution.appearanceOr infApps [true, false] (Pattern.new X) = .ok .inf) ∧
    SelectorContribution.compute (SelectorContribution.appearanceOr infApps [true, false]) none (Pattern.new (infApps.map (·.1))) =
      .ok (.inf, .nan) := by decide +kernel

/-- odds ratio 15 for the pair, 1 and 5 for its members: contributions 14 and 10 -/
example : SelectorContribution.compute (fun p => .ok (if p.len = 2 then .fin 15 else if p = Pattern.new [⟨c!"a", .equal, .str c!"x"⟩] then .fin 1 else .fin 5))
    none (Pattern.new [⟨c!"b", .equal, .str c!"y"⟩, ⟨c!"a", .equal, .str c!"x"⟩]) = .ok (.fin 10, .fin (7/5)) := by decide +kernel

/-! ### the dictionary of parameters -/
section
open SelectorContribution

namespace Spec
/-- a required parameter is missing -/
def MissingArgs (d : Args) : Prop :=
  (d.oddsRatios = none ∧ d.appearances = none) ∨ (d.appearances ≠ none ∧ d.target = none) ∨ d.definition = none ∨ d.pattern = none
/-- the definition of the odds ratio is not one of the two known -/
def UnknownDefinition (d : Args) : Prop := ∃ x, d.definition = some x ∧ x ≠ "glm".toList ∧ x ≠ "statistic".toList
/-- the rows where all the selectors appear -/
def conjunction (apps : List (Selector × Bits)) (n : Nat) (sels : List Selector) : Bits :=
  (List.range n).map (fun i => sels.all (fun s => ((apps.lookup s).getD []).getD i false))
end Spec

theorem ratio_total (mn mx : XF) (e : PyErr) : ratio mn mx ≠ .error e := by
  unfold ratio
  split
  · simp
  · rename_i h0
    split
    · simp
    · unfold XF.div
      cases mx <;> cases mn <;> simp_all [XF.eqv]

theorem remove_subset (p : Pattern) (s : Selector) : ∀ t ∈ (p.copy.remove s).sels, t ∈ p.sels := by
  intro t ht
  unfold Pattern.remove at ht
  simp only [Pattern.copy] at ht
  split at ht
  · split at ht
    · exact List.mem_of_mem_eraseIdx ht
    · exact ht
  · exact ht

theorem contribution_loop_error {orOf : Pattern → Except PyErr XF} {th : Option XF} {p : Pattern} {o : XF} {l : List Selector} {mn mx : XF} {e : PyErr}
    (h : loop orOf th p o l mn mx = .error e) : ∃ s ∈ l, orOf (p.copy.remove s) = .error e := by
  induction l generalizing mn mx with
  | nil => cases h
  | cons s l ih =>
    rw [loop] at h
    cases hs : orOf (p.copy.remove s) with
    | error e' => rw [hs] at h; cases h; exact ⟨s, by simp, hs⟩
    | ok o' =>
      rw [hs] at h
      simp only at h
      split at h
      all_goals (try split at h)
      all_goals first
        | cases h; done
        | (obtain ⟨t, ht, he⟩ := ih h; exact ⟨t, by simp [ht], he⟩)

theorem contribution_error {orOf : Pattern → Except PyErr XF} {th : Option XF} {p : Pattern} {e : PyErr} (h : compute orOf th p = .error e) :
    2 ≤ p.len ∧ (orOf p = .error e ∨ ∃ s ∈ p.sels, orOf (p.copy.remove s) = .error e) := by
  unfold compute at h
  by_cases h0 : p.len = 0
  · rw [if_pos h0] at h; cases h
  · rw [if_neg h0] at h
    by_cases h1 : p.len = 1
    · rw [if_pos h1] at h; cases h
    · rw [if_neg h1] at h
      refine ⟨by omega, ?_⟩
      cases ho : orOf p with
      | error e' => rw [ho] at h; cases h; exact .inl rfl
      | ok o =>
        rw [ho] at h
        simp only at h
        cases hl : loop orOf th p o p.sels .inf .ninf with
        | error e' => rw [hl] at h; cases h; exact .inr (contribution_loop_error hl)
        | ok r =>
          rw [hl] at h
          rcases r with r | ⟨mn, mx⟩
          · cases h
          · simp only at h
            cases hr : ratio mn mx with
            | error e' => exact absurd hr (ratio_total _ _ _)
            | ok v => rw [hr] at h; cases h

theorem appearance_ok (apps : List (Selector × Bits)) (sels : List Selector) (acc : Bits) (h : ∀ s ∈ sels, (apps.lookup s).isSome) : ∃ b, appearance apps sels acc = .ok b := by
  induction sels generalizing acc with
  | nil => exact ⟨acc, rfl⟩
  | cons s l ih =>
    obtain ⟨b, hb⟩ := Option.isSome_iff_exists.1 (h s (by simp))
    rw [appearance, hb]
    exact ih _ (fun t ht => h t (by simp [ht]))

theorem appearance_error (apps : List (Selector × Bits)) (sels : List Selector) (acc : Bits) (h : ∃ s ∈ sels, apps.lookup s = none) : appearance apps sels acc = .error .keyError := by
  induction sels generalizing acc with
  | nil => simp at h
  | cons s l ih =>
    rw [appearance]
    cases hs : apps.lookup s with
    | none => rfl
    | some b =>
      simp only
      apply ih
      obtain ⟨t, ht, he⟩ := h
      rcases List.mem_cons.1 ht with rfl | ht
      · rw [hs] at he; cases he
      · exact ⟨t, ht, he⟩

/-- all the series have the same length -/
theorem appearance_rows (apps : List (Selector × Bits)) (n : Nat) (hn : ∀ e ∈ apps, e.2.length = n) (sels : List Selector) (acc : Bits) (hacc : acc.length = n)
    (h : ∀ s ∈ sels, (apps.lookup s).isSome) :
    appearance apps sels acc = .ok ((List.range n).map (fun i => acc.getD i false && sels.all (fun s => ((apps.lookup s).getD []).getD i false))) := by
  induction sels generalizing acc with
  | nil =>
    rw [appearance]
    congr 1
    apply List.ext_getElem?
    intro i
    by_cases hi : i < n
    · simp [hi, hacc, List.getD]
    · have : acc[i]? = none := List.getElem?_eq_none (by omega)
      simp [this, hi]
  | cons s l ih =>
    obtain ⟨b, hb⟩ := Option.isSome_iff_exists.1 (h s (by simp))
    rw [appearance, hb]
    simp only
    have hbl : b.length = n := hn (s, b) (by
      clear ih hacc h hn
      induction apps with
      | nil => cases hb
      | cons e apps ih =>
        rw [List.lookup_cons] at hb
        by_cases he : s == e.1
        · rw [he] at hb
          simp only [Option.some.injEq] at hb
          have : e = (s, b) := by rw [← hb, eq_of_beq he]
          simp [this]
        · simp only [he] at hb
          exact List.mem_cons_of_mem _ (ih hb))
    have hal : (acc.alignAnd b).length = n := by rw [Bits.alignAnd_length, hacc, hbl, max_self]
    rw [ih _ hal (fun t ht => h t (by simp [ht]))]
    congr 1
    apply List.map_congr_left
    intro i _
    rw [Bits.alignAnd_getD, List.all_cons, hb, Option.getD_some, Bool.and_assoc]

/-- C48: which calls fail, with the odds ratios computed from the appearances of the selectors. -/
theorem C48_errors (glm : Bits → Bits → XF) (d : Args) (e : PyErr) :
    run glm d = .error e ↔
      (e = .parameterNotFound ∧ MissingArgs d) ∨
      (e = .valueError ∧ ¬ MissingArgs d ∧ UnknownDefinition d) ∨
      (¬ MissingArgs d ∧ ¬ UnknownDefinition d ∧ ∃ p, d.pattern = some p ∧
        ((∃ t, d.oddsRatios = some t ∧ compute (tableOr t) d.threshold p = .error e) ∨
         (d.oddsRatios = none ∧ 2 ≤ p.len ∧ ((e = .indexError ∧ d.appearances = some []) ∨
            (e = .keyError ∧ d.appearances ≠ some [] ∧ ∃ apps, d.appearances = some apps ∧ ∃ s ∈ p.sels, apps.lookup s = none))))) := by
  obtain ⟨od, ap, tg, df, th, pt⟩ := d
  unfold run MissingArgs UnknownDefinition
  simp only
  cases df with
  | none =>
    cases od <;> cases ap <;> cases tg <;> (simp; try exact eq_comm)
  | some x =>
    cases pt with
    | none => cases od <;> cases ap <;> cases tg <;> (simp; try exact eq_comm)
    | some p =>
      have hglm : c!"glm" = "glm".toList := by decide +kernel
      have hst : c!"statistic" = "statistic".toList := by decide +kernel
      rw [hglm, hst]
      clear hglm hst
      generalize "glm".toList = G
      generalize "statistic".toList = S
      by_cases hx : x ≠ G ∧ x ≠ S
      · have hx' : ∃ y, some x = some y ∧ y ≠ G ∧ y ≠ S := ⟨x, rfl, hx⟩
        simp only [hx']
        rw [if_pos hx]
        cases od <;> cases ap <;> cases tg <;> (simp; try exact eq_comm)
      · have hx' : ¬ ∃ y, some x = some y ∧ y ≠ G ∧ y ≠ S := by
          rintro ⟨y, hy, h⟩; cases hy; exact hx h
        simp only [hx, hx', if_false]
        cases od with
        | some t =>
          cases ap with
          | none => simp
          | some apps => cases tg <;> (simp; try exact eq_comm)
        | none =>
          cases ap with
          | none => (simp; try exact eq_comm)
          | some apps =>
            cases tg with
            | none => (simp; try exact eq_comm)
            | some tg =>
              simp only [Option.isNone_none, Option.isNone_some, Option.isSome_some, Bool.and_false, Bool.false_eq_true, if_false, Option.getD_some, reduceCtorEq, false_and, and_false, false_or,
                or_false, not_false_eq_true, ne_eq, true_and, Option.some.injEq, exists_eq_left', exists_false]
              generalize (if x = G then glm else OddsRatioStatistic.ofBits) = m
              constructor
              · intro h
                obtain ⟨hlen, h⟩ := contribution_error h
                refine ⟨hlen, ?_⟩
                have key : ∀ q : Pattern, (∀ t ∈ q.sels, t ∈ p.sels) → appearanceBy m apps tg q = .error e →
                    (e = .indexError ∧ apps = []) ∨ (e = .keyError ∧ ¬ apps = [] ∧ ∃ s ∈ p.sels, apps.lookup s = none) := by
                  intro q hq hq'
                  unfold appearanceBy at hq'
                  cases apps with
                  | nil => cases hq'; exact .inl ⟨rfl, rfl⟩
                  | cons a rest =>
                    simp only at hq'
                    by_cases hall : ∀ s ∈ q.sels, ((a :: rest).lookup s).isSome
                    · obtain ⟨b, hb⟩ := appearance_ok _ q.sels (List.replicate a.2.length true) hall
                      rw [hb] at hq'; cases hq'
                    · push Not at hall
                      obtain ⟨s, hs, hn⟩ := hall
                      have hn : (a :: rest).lookup s = none := Option.not_isSome_iff_eq_none.1 (by simpa only [Bool.not_eq_true, ne_eq] using hn)
                      rw [appearance_error _ q.sels _ ⟨s, hs, hn⟩] at hq'
                      cases hq'
                      exact .inr ⟨rfl, by simp, s, hq s hs, hn⟩
                rcases h with h | ⟨s, hs, h⟩
                · exact key p (fun _ h => h) h
                · exact key _ (remove_subset p s) h
              · rintro ⟨hlen, h⟩
                have hp : appearanceBy m apps tg p = .error e := by
                  unfold appearanceBy
                  rcases h with ⟨rfl, rfl⟩ | ⟨rfl, hne, s, hs, hn⟩
                  · rfl
                  · cases apps with
                    | nil => exact absurd rfl hne
                    | cons a rest => simp only; rw [appearance_error _ p.sels _ ⟨s, hs, hn⟩]
                unfold compute
                rw [if_neg (by omega), if_neg (by omega), hp]

/-- C48: with a table of odds ratios by text, the call fails exactly if one of those it needs is missing (without a threshold). -/
theorem C48_table_errors (t : Dict XF) (p : Pattern) (e : PyErr) :
    compute (tableOr t) none p = .error e ↔
      e = .keyError ∧ 2 ≤ p.len ∧ (t.lookup p.str = none ∨ ∃ s ∈ p.sels, t.lookup (p.copy.remove s).str = none) := by
  have err : ∀ q e, tableOr t q = .error e ↔ e = .keyError ∧ t.lookup q.str = none := by
    intro q e
    unfold tableOr
    cases h : t.lookup q.str <;> simp [eq_comm]
  constructor
  · intro h
    obtain ⟨hlen, h⟩ := contribution_error h
    rcases h with h | ⟨s, hs, h⟩
    · exact ⟨((err _ _).1 h).1, hlen, .inl ((err _ _).1 h).2⟩
    · exact ⟨((err _ _).1 h).1, hlen, .inr ⟨s, hs, ((err _ _).1 h).2⟩⟩
  · rintro ⟨rfl, hlen, h⟩
    cases hc : compute (tableOr t) none p with
    | error e =>
      obtain ⟨-, h'⟩ := contribution_error hc
      rcases h' with h' | ⟨s, hs, h'⟩
      · rw [((err _ _).1 h').1]
      · rw [((err _ _).1 h').1]
    | ok r =>
      exfalso
      unfold compute at hc
      rw [if_neg (by omega), if_neg (by omega)] at hc
      cases ho : tableOr t p with
      | error e => rw [ho] at hc; cases hc
      | ok o =>
        rcases h with h | ⟨s, hs, h⟩
        · rw [(err _ _).2 ⟨rfl, h⟩] at ho; cases ho
        · rw [ho] at hc
          simp only at hc
          have hl : ∀ (l : List Selector) (mn mx : XF), s ∈ l → ∃ e, loop (tableOr t) none p o l mn mx = .error e := by
            intro l
            induction l with
            | nil => intro _ _ h; cases h
            | cons x l ih =>
              intro mn mx hx
              rw [loop]
              cases hx' : tableOr t (p.copy.remove x) with
              | error e => exact ⟨e, rfl⟩
              | ok o' =>
                rcases List.mem_cons.1 hx with rfl | hx
                · rw [(err _ _).2 ⟨rfl, h⟩] at hx'; cases hx'
                · simp only [Bool.false_eq_true, if_false]
                  exact ih _ _ hx
          obtain ⟨e, he⟩ := hl p.sels .inf .ninf hs
          rw [he] at hc
          cases hc

/-- C48: otherwise, with series of one length, the odds ratios that are compared are those of the rows where all the selectors appear, against the target. -/
theorem C48_from_appearances (glm : Bits → Bits → XF) (apps : List (Selector × Bits)) (n : Nat) (hn : ∀ e ∈ apps, e.2.length = n) (tg : Bits) (p : Pattern)
    (hne : apps ≠ []) (hp : ∀ s ∈ p.sels, (apps.lookup s).isSome) (th : Option XF) (isGlm : Bool) :
    run glm ⟨none, some apps, some tg, some (if isGlm then "glm".toList else "statistic".toList), th, some p⟩ =
      compute (fun q => .ok ((if isGlm then glm else OddsRatioStatistic.ofBits) (conjunction apps n q.sels) tg)) th p := by
  have hglm : c!"glm" = "glm".toList := by decide +kernel
  have hst : c!"statistic" = "statistic".toList := by decide +kernel
  have hdiff : ¬ ("statistic".toList = "glm".toList) := by decide +kernel
  have key : ∀ (m : Bits → Bits → XF) (q : Pattern), (∀ t ∈ q.sels, t ∈ p.sels) → appearanceBy m apps tg q = .ok (m (conjunction apps n q.sels) tg) := by
    intro m q hq
    unfold appearanceBy
    cases hap : apps with
    | nil => exact absurd hap hne
    | cons a rest =>
      simp only
      have ha : a.2.length = n := hn a (by rw [hap]; simp)
      rw [ha, ← hap, appearance_rows apps n hn q.sels (List.replicate n true) (by simp) (fun s hs => hp s (hq s hs))]
      simp only
      congr 2
      unfold conjunction
      apply List.map_congr_left
      intro i hi
      have := List.mem_range.1 hi
      simp [List.getD, this]
  have hcongr : ∀ (f g : Pattern → Except PyErr XF), f p = g p → (∀ s ∈ p.sels, f (p.copy.remove s) = g (p.copy.remove s)) → compute f th p = compute g th p := by
    intro f g h1 h2
    have hl : ∀ (o : XF) (l : List Selector), (∀ s ∈ l, s ∈ p.sels) → ∀ mn mx, loop f th p o l mn mx = loop g th p o l mn mx := by
      intro o l
      induction l with
      | nil => intro _ _ _; rfl
      | cons s l ih =>
        intro hl mn mx
        rw [loop, loop, h2 s (hl s (by simp))]
        simp only [ih (fun t ht => hl t (by simp [ht]))]
    unfold compute
    rw [h1]
    simp only [hl _ p.sels (fun _ h => h)]
  unfold run
  simp only [Option.isNone_none, Option.isNone_some, Option.isSome_some, Bool.and_false, Bool.false_eq_true, if_false, Option.getD_some]
  rw [hglm, hst]
  cases isGlm
  · rw [if_neg (by simp)]
    simp only [Bool.false_eq_true, if_false, hdiff]
    exact hcongr _ _ (key _ p (fun _ h => h)) (fun s _ => key _ _ (remove_subset p s))
  · rw [if_neg (by simp)]
    simp only [if_true]
    exact hcongr _ _ (key _ p (fun _ h => h)) (fun s _ => key _ _ (remove_subset p s))

example : run (fun _ _ => .nan) ⟨none, some [(⟨c!"a", .equal, .str c!"x"⟩, [true, true, false]), (⟨c!"b", .equal, .str c!"y"⟩, [true, false, true])], some [true, false, false],
    some c!"statistic", none, some (Pattern.new [⟨c!"b", .equal, .str c!"y"⟩, ⟨c!"c", .equal, .str c!"z"⟩])⟩ = .error .keyError := by decide +kernel
end

end Verif

import Verif.Lemmas.QFinderTop
import Verif.Lemmas.QFinderFit
import Verif.Lemmas.FloatIDSD
import Verif.Spec.FloatQFinder
/-! QFinder with rounding: selection, table of credibility values and `fit`. -/
namespace Verif.QFinderRounded
open Spec BSD
open QFinder hiding credOfCol credTable rejected replaces consider lengthLoop lengthsLoop selectTopK fit testSubgroups testFile SelInv SelInv.stay_append exceeds_of_lt consider_spec lengthLoop_spec lengthsLoop_spec selectTopK_spec loop_congr' compute_congr' glmContrib_ok credOfCol_ok credTable_ok credOfCol_error credTable_error fit_eq
open IDSD (redundant otherLoop valueCounts covBits covBits_length covBits_getD covBits_congr alignAnd_covBits mem_new new_len sublist_ext add_new new_sels_eq mask_getD)

theorem addDelta_eq (ρ : Rat → Rat) (x : XF) (d : Rat) : addDelta ρ x d = roundX ρ (x.addFin d) := by
  cases x <;> rfl

/-- invariant of the selection: `done` are the patterns dealt with -/
structure SelInv (ρ : Rat → Rat) (cfg : QFConfig) (E done top : List QFEntry) : Prop where
  sub : top.Sublist done
  size : (top.length : Int) ≤ cfg.num
  pairs : ∀ a ∈ top, ∀ b ∈ top, Generalises a b → ExceedsRounded ρ cfg b a
  reason : ∀ c ∈ done, c ∈ top ∨ AbsenceReasonRounded ρ cfg E c
  stay : ∀ a ∈ top, ∀ b ∈ top, Generalises a b → (roundX ρ (a.cred.odds.addFin cfg.delta)).lt b.cred.odds = true → b.cred.pval.lt a.cred.pval = true →
    ∃ d ∈ done, d ∉ top ∧ [d, a].Sublist done ∧ Generalises d b ∧ ExceedsRounded ρ cfg b d ∧ b.cred.pval.lt d.cred.pval = true

variable {ρ : Rat → Rat} {cfg : QFConfig} {E : List QFEntry}

theorem SelInv.stay_append {done top : List QFEntry} (hi : SelInv ρ cfg E done top) (l : List QFEntry) :
    ∀ a ∈ top, ∀ b ∈ top, Generalises a b → (roundX ρ (a.cred.odds.addFin cfg.delta)).lt b.cred.odds = true → b.cred.pval.lt a.cred.pval = true →
    ∃ d ∈ done ++ l, d ∉ top ∧ [d, a].Sublist (done ++ l) ∧ Generalises d b ∧ ExceedsRounded ρ cfg b d ∧ b.cred.pval.lt d.cred.pval = true := by
  intro a ha b hb h1 h2 h3
  obtain ⟨d, d1, d2, d3, d4⟩ := hi.stay a ha b hb h1 h2 h3
  exact ⟨d, List.mem_append_left _ d1, d2, d3.trans (List.sublist_append_left _ _), d4⟩

theorem exceeds_of_lt {a b : QFEntry} (h3 : (roundX ρ (a.cred.odds.addFin cfg.delta)).lt b.cred.odds = true) : ExceedsRounded ρ cfg b a := by
  unfold ExceedsRounded
  by_contra hc'
  have hc' : b.cred.odds.le (roundX ρ (a.cred.odds.addFin cfg.delta)) = true := by simpa using hc'
  rw [XF.not_lt_of_le hc'] at h3
  simp at h3

theorem consider_spec (hE : Good E) {done top : List QFEntry} {e : QFEntry} (hd : (done ++ [e]).Nodup) (hs : ∀ x ∈ done ++ [e], x ∈ E)
    (hlen : ∀ x ∈ done, x.pat.len ≤ e.pat.len) (hi : SelInv ρ cfg E done top) :
    SelInv ρ cfg E (done ++ [e]) (consider ρ cfg top e) := by
  have heE : e ∈ E := hs e (by simp)
  have htE : ∀ x ∈ top, x ∈ E := fun x hx => hs x (by simp [hi.sub.subset hx])
  have hed : e ∉ done := by
    rw [List.nodup_append] at hd
    exact fun h => hd.2.2 e h e (by simp) rfl
  have het : e ∉ top := fun h => hed (hi.sub.subset h)
  unfold consider
  by_cases hr : rejected ρ cfg top e = true
  · rw [if_pos hr]
    refine ⟨hi.sub.trans (List.sublist_append_left _ _), hi.size, hi.pairs, fun c hc => ?_, hi.stay_append [e]⟩
    rcases List.mem_append.1 hc with hc | hc
    · exact hi.reason c hc
    · rw [List.mem_singleton] at hc
      subst hc
      refine .inr (.inl ?_)
      unfold rejected at hr
      rw [List.any_eq_true] at hr
      obtain ⟨t, ht, hr⟩ := hr
      simp only [addDelta_eq, Bool.and_eq_true, Bool.or_eq_true, decide_eq_true_eq] at hr
      obtain ⟨hr, hl | ⟨hl, ho⟩⟩ := hr
      · exfalso
        have := redundant_eq (hE.sorted c heE) (hE.sorted t (htE t ht)) (hE.texts c heE) hr hl
        exact het (hE.eq_of_pat heE (htE t ht) this ▸ ht)
      · exact ⟨t, htE t ht, ⟨hl, redundant_sub (nodup_of_sorted (hE.sorted c heE)) hr hl⟩, by unfold ExceedsRounded; rw [ho]; simp⟩
  · rw [if_neg hr]
    have hr' : ∀ t ∈ top, redundant e.pat t.pat = true → e.pat.len > t.pat.len → ExceedsRounded ρ cfg e t := by
      intro t ht h1 h2
      by_contra hc
      apply hr
      unfold rejected
      rw [List.any_eq_true]
      refine ⟨t, ht, ?_⟩
      simp only [addDelta_eq, Bool.and_eq_true, Bool.or_eq_true, decide_eq_true_eq]
      refine ⟨h1, .inr ⟨h2, ?_⟩⟩
      unfold ExceedsRounded at hc
      simpa using hc
    obtain ⟨hsub, hrem, hskip⟩ := removeLoop_spec (replaces ρ cfg e) top
    set l := removeLoop (replaces ρ cfg e) top with hl
    have hsub' : (l ++ [e]).Sublist (done ++ [e]) := (hsub.trans hi.sub).append (List.Sublist.refl _)
    have hpairs : ∀ a ∈ l ++ [e], ∀ b ∈ l ++ [e], Generalises a b → ExceedsRounded ρ cfg b a := by
      intro a ha b hb hg
      rcases List.mem_append.1 hb with hb | hb
      · rcases List.mem_append.1 ha with ha | ha
        · exact hi.pairs a (hsub.subset ha) b (hsub.subset hb) hg
        · rw [List.mem_singleton] at ha
          subst ha
          exfalso
          have := hlen b (hi.sub.subset (hsub.subset hb))
          have := hg.1
          omega
      · rw [List.mem_singleton] at hb
        subst hb
        rcases List.mem_append.1 ha with ha | ha
        · refine hr' a (hsub.subset ha) ?_ hg.1
          unfold redundant
          rw [Bool.or_eq_true, Pattern.isRefinement_iff, Pattern.isRefinement_iff]
          exact .inr ⟨hg.2, .inr rfl⟩
        · rw [List.mem_singleton] at ha
          subst ha
          exact absurd hg.1 (by omega)
    have hreason : ∀ c ∈ done ++ [e], c ∈ l ++ [e] ∨ AbsenceReasonRounded ρ cfg E c := by
      intro c hc
      rcases List.mem_append.1 hc with hc | hc
      · rcases hi.reason c hc with h | h
        · rcases hrem c h with h' | h'
          · exact .inl (by simp [h'])
          · refine .inr (.inr (.inl ⟨e, heE, ?_⟩))
            unfold replaces at h'
            simp only [addDelta_eq, Bool.and_eq_true, decide_eq_true_eq] at h'
            obtain ⟨⟨⟨h1, h2⟩, h3⟩, h4⟩ := h'
            exact ⟨⟨h2, redundant_sub (nodup_of_sorted (hE.sorted e heE)) h1 h2⟩, exceeds_of_lt h3, h4⟩
        · exact .inr h
      · exact .inl (by simp at hc ⊢; exact .inr hc)
    have hstay : ∀ a ∈ l ++ [e], ∀ b ∈ l ++ [e], Generalises a b → (roundX ρ (a.cred.odds.addFin cfg.delta)).lt b.cred.odds = true → b.cred.pval.lt a.cred.pval = true →
        ∃ d ∈ done ++ [e], d ∉ l ++ [e] ∧ [d, a].Sublist (done ++ [e]) ∧ Generalises d b ∧ ExceedsRounded ρ cfg b d ∧ b.cred.pval.lt d.cred.pval = true := by
      intro a ha b hb hg h1 h2
      rcases List.mem_append.1 ha with ha | ha
      · rcases List.mem_append.1 hb with hb | hb
        · obtain ⟨d, d1, d2, d3, d4⟩ := hi.stay a (hsub.subset ha) b (hsub.subset hb) hg h1 h2
          refine ⟨d, List.mem_append_left _ d1, ?_, d3.trans (List.sublist_append_left _ _), d4⟩
          intro h
          rcases List.mem_append.1 h with h | h
          · exact d2 (hsub.subset h)
          · exact hed (List.mem_singleton.1 h ▸ d1)
        · rw [List.mem_singleton] at hb
          subst hb
          have hra : replaces ρ cfg b a = true := by
            unfold replaces
            simp only [addDelta_eq, Bool.and_eq_true, decide_eq_true_eq]
            refine ⟨⟨⟨?_, hg.1⟩, h1⟩, h2⟩
            unfold redundant
            rw [Bool.or_eq_true, Pattern.isRefinement_iff, Pattern.isRefinement_iff]
            exact .inr ⟨hg.2, .inr rfl⟩
          obtain ⟨d, d1, d2, d3⟩ := hskip (hi.sub.nodup (List.nodup_append.1 hd).1) a ha hra
          have hdt : d ∈ top := d3.subset (by simp)
          unfold replaces at d1
          simp only [addDelta_eq, Bool.and_eq_true, decide_eq_true_eq] at d1
          obtain ⟨⟨⟨g1, g2⟩, g3⟩, g4⟩ := d1
          refine ⟨d, List.mem_append_left _ (hi.sub.subset hdt), ?_, (d3.trans hi.sub).trans (List.sublist_append_left _ _),
            ⟨g2, redundant_sub (nodup_of_sorted (hE.sorted b heE)) g1 g2⟩, exceeds_of_lt g3, g4⟩
          intro h
          rcases List.mem_append.1 h with h | h
          · exact d2 h
          · exact het (List.mem_singleton.1 h ▸ hdt)
      · rw [List.mem_singleton] at ha
        subst ha
        exfalso
        have h3 := hg.1
        rcases List.mem_append.1 hb with hb | hb
        · have := hlen b (hi.sub.subset (hsub.subset hb))
          omega
        · rw [List.mem_singleton.1 hb] at h3
          omega
    have hszl : l.length ≤ top.length := hsub.length_le
    have hsz := hi.size
    simp only
    by_cases hn : ((l ++ [e]).length : Int) > cfg.num
    · rw [if_pos hn]
      have hnd : (l ++ [e]).Nodup := hsub'.nodup hd
      have hpn : ∀ x ∈ l ++ [e], x.cred.pval ≠ .nan := fun x hx => hE.pval x (hs x (hsub'.subset hx))
      obtain ⟨t, ts, htt⟩ : ∃ t ts, l ++ [e] = t :: ts := by
        cases h : l ++ [e] with
        | nil => simp at h
        | cons t ts => exact ⟨t, ts, rfl⟩
      rw [htt] at hpn hnd hn hsub' hpairs hreason hstay ⊢
      obtain ⟨hm1, hm2⟩ := firstMax_spec t ts hpn
      have hle : (t :: ts).length = l.length + 1 := by rw [← htt]; simp
      have hel : ((t :: ts).erase (firstMax t ts)).length = l.length := by rw [List.length_erase_of_mem hm1, hle]; omega
      change SelInv ρ cfg E (done ++ [e]) ((t :: ts).erase (firstMax t ts))
      refine ⟨List.erase_sublist.trans hsub', by rw [hel]; omega, ?_, ?_, ?_⟩
      · intro a ha b hb
        exact hpairs a (List.mem_of_mem_erase ha) b (List.mem_of_mem_erase hb)
      · intro c hc
        rcases hreason c hc with h | h
        · by_cases hcm : c = firstMax t ts
          · right
            refine .inr (.inr ⟨c, hs c hc, rfl, .inl rfl, (t :: ts).erase (firstMax t ts), hnd.erase _, ?_, ?_, ?_⟩)
            · intro x hx
              have hx' := List.mem_of_mem_erase hx
              exact ⟨hs x (hsub'.subset hx'), by rw [hcm]; exact hm2 x hx'⟩
            · rw [hcm]; exact fun h => hnd.not_mem_erase h
            · rw [hel]
              omega
          · exact .inl ((List.mem_erase_of_ne hcm).2 h)
        · exact .inr h
      · intro a ha b hb h1 h2 h3
        obtain ⟨d, d1, d2, d3⟩ := hstay a (List.mem_of_mem_erase ha) b (List.mem_of_mem_erase hb) h1 h2 h3
        exact ⟨d, d1, fun h => d2 (List.mem_of_mem_erase h), d3⟩
    · rw [if_neg hn]
      exact ⟨hsub', by omega, hpairs, hreason, hstay⟩

theorem lengthLoop_spec (hE : Good E) (hnum : 1 ≤ cfg.num) (n : Nat) (l : List QFEntry) : ∀ (done top : List QFEntry), (done ++ l).Nodup → (∀ x ∈ done ++ l, x ∈ E) →
    (∀ x ∈ done, x.pat.len ≤ n) → (∀ x ∈ l, x.pat.len = n) → l.Pairwise (RankBefore cfg) → SelInv ρ cfg E done top →
    ∃ top', lengthLoop ρ cfg l top = .ok top' ∧ SelInv ρ cfg E (done ++ l) top' := by
  induction l with
  | nil => intro done top _ _ _ _ _ hi; exact ⟨top, rfl, by simpa using hi⟩
  | cons e rest ih =>
    intro done top hd hs hlen hl hp hi
    rw [List.pairwise_cons] at hp
    rw [lengthLoop]
    by_cases hfull : (top.length : Int) = cfg.num
    · obtain ⟨t, ts, rfl⟩ : ∃ t ts, top = t :: ts := by
        cases top with
        | nil => simp at hfull; omega
        | cons t ts => exact ⟨t, ts, rfl⟩
      have hlv : leave cfg.num (t :: ts) e = .ok ((maxP t ts).lt e.cred.pval) := by unfold leave; rw [if_pos hfull]
      rw [hlv]
      cases hlt : (maxP t ts).lt e.cred.pval
      · exact step hE n ih hd hs hlen hl hp.2 hi
      · refine ⟨_, rfl, hi.sub.trans (List.sublist_append_left _ _), hi.size, hi.pairs, fun c hc => ?_, hi.stay_append (e :: rest)⟩
        rcases List.mem_append.1 hc with hc' | hc'
        · exact hi.reason c hc'
        · right
          have hpn : ∀ x ∈ t :: ts, x.cred.pval ≠ .nan := fun x hx => hE.pval x (hs x (by simp [hi.sub.subset hx]))
          have hmax := maxP_spec t ts hpn
          have hcn : c ∉ t :: ts := by
            intro h
            rw [List.nodup_append] at hd
            exact hd.2.2 c (hi.sub.subset h) c hc' rfl
          have hnd : (t :: ts).Nodup := hi.sub.nodup (List.nodup_append.1 hd).1
          have hle : ∀ x ∈ t :: ts, x ∈ E ∧ x.cred.pval.le e.cred.pval = true :=
            fun x hx => ⟨hs x (by simp [hi.sub.subset hx]), XF.le_trans (hmax x hx) (XF.lt_le hlt)⟩
          have hlc := hl c hc'
          rcases List.mem_cons.1 hc' with rfl | hc''
          · exact .inr (.inr ⟨c, hs c hc, rfl, .inl rfl, t :: ts, hnd, hle, hcn, hfull⟩)
          · rcases hp.1 c hc'' with h | ⟨h, h'⟩
            · exact .inr (.inr ⟨e, hs e (by simp), by rw [hlc, hl e (by simp)], .inr h, t :: ts, hnd, hle, hcn, hfull⟩)
            · exact .inr (.inr ⟨c, hs c hc, rfl, .inl rfl, t :: ts, hnd, fun x hx => ⟨(hle x hx).1, XF.le_trans (hle x hx).2 h'⟩, hcn, hfull⟩)
    · have hlv : leave cfg.num top e = .ok false := by unfold leave; rw [if_neg hfull]
      rw [hlv]
      exact step hE n ih hd hs hlen hl hp.2 hi
where
  step {ρ : Rat → Rat} {cfg : QFConfig} {E : List QFEntry} (hE : Good E) (n : Nat) {e : QFEntry} {rest : List QFEntry}
    (ih : ∀ (done top : List QFEntry), (done ++ rest).Nodup → (∀ x ∈ done ++ rest, x ∈ E) →
      (∀ x ∈ done, x.pat.len ≤ n) → (∀ x ∈ rest, x.pat.len = n) → rest.Pairwise (RankBefore cfg) → SelInv ρ cfg E done top →
      ∃ top', lengthLoop ρ cfg rest top = .ok top' ∧ SelInv ρ cfg E (done ++ rest) top')
    {done top : List QFEntry} (hd : (done ++ e :: rest).Nodup) (hs : ∀ x ∈ done ++ e :: rest, x ∈ E) (hlen : ∀ x ∈ done, x.pat.len ≤ n)
    (hl : ∀ x ∈ e :: rest, x.pat.len = n) (hp : rest.Pairwise (RankBefore cfg)) (hi : SelInv ρ cfg E done top) :
    ∃ top', lengthLoop ρ cfg rest (consider ρ cfg top e) = .ok top' ∧ SelInv ρ cfg E (done ++ e :: rest) top' := by
    have h1 : done ++ e :: rest = (done ++ [e]) ++ rest := by simp
    rw [h1] at hd hs ⊢
    have hle := hl e (by simp)
    refine ih _ _ hd hs ?_ (fun x hx => hl x (by simp [hx])) hp ?_
    · intro x hx
      rcases List.mem_append.1 hx with hx | hx
      · exact hlen x hx
      · rw [List.mem_singleton.1 hx]; omega
    · exact consider_spec hE (List.nodup_append.1 hd).1 (fun x hx => hs x (by simp only [List.mem_append] at hx ⊢; tauto))
        (fun x hx => by rw [hle]; exact hlen x hx) hi

theorem lengthsLoop_spec (hE : Good E) (hnum : 1 ≤ cfg.num) (hr : E.Pairwise (RankBefore cfg)) (ns : List Nat) : ∀ (done top : List QFEntry),
    ns.Pairwise (· < ·) → (∀ x ∈ done, x ∈ E ∧ ∀ n ∈ ns, x.pat.len < n) → done.Nodup → SelInv ρ cfg E done top →
    ∃ top', lengthsLoop ρ cfg E ns top = .ok top' ∧ SelInv ρ cfg E (done ++ ns.flatMap (fun n => E.filter (fun e => decide (e.pat.len = n)))) top' := by
  induction ns with
  | nil => intro done top _ _ _ hi; exact ⟨top, rfl, by simpa using hi⟩
  | cons n ns ih =>
    intro done top hns hd hnd hi
    rw [List.pairwise_cons] at hns
    rw [lengthsLoop]
    set l := E.filter (fun e => decide (e.pat.len = n)) with hl
    have hml : ∀ x ∈ l, x ∈ E ∧ x.pat.len = n := fun x hx => by rw [hl, List.mem_filter, decide_eq_true_eq] at hx; exact hx
    have hnd' : (done ++ l).Nodup := by
      rw [List.nodup_append]
      refine ⟨hnd, hE.nodup.filter _, ?_⟩
      rintro a ha b hb rfl
      have := (hd a ha).2 n (by simp)
      have := (hml a hb).2
      omega
    obtain ⟨top1, h1, h2⟩ := lengthLoop_spec hE hnum n l done top hnd'
      (fun x hx => by rcases List.mem_append.1 hx with hx | hx; exacts [(hd x hx).1, (hml x hx).1])
      (fun x hx => ((hd x hx).2 n (by simp)).le) (fun x hx => (hml x hx).2) (hr.sublist List.filter_sublist) hi
    rw [h1]
    simp only
    obtain ⟨top2, h3, h4⟩ := ih (done ++ l) top1 hns.2 (by
      intro x hx
      rcases List.mem_append.1 hx with hx | hx
      · exact ⟨(hd x hx).1, fun m hm => (hd x hx).2 m (by simp [hm])⟩
      · exact ⟨(hml x hx).1, fun m hm => by rw [(hml x hx).2]; exact hns.1 m hm⟩) hnd' h2
    exact ⟨top2, h3, by rw [List.flatMap_cons, ← List.append_assoc]; exact h4⟩

/-- the selection: size, order, pairs and the reasons for the absences -/
theorem selectTopK_spec (hE : Good E) (hnum : 1 ≤ cfg.num) (hr : E.Pairwise (RankBefore cfg)) :
    ∃ top, selectTopK ρ cfg E = .ok top ∧ (top.length : Int) ≤ cfg.num ∧ (∀ e ∈ top, e ∈ E) ∧ top.Nodup ∧ top.Pairwise (QFBefore cfg) ∧
      (∀ a ∈ top, ∀ b ∈ top, Generalises a b → ExceedsRounded ρ cfg b a) ∧ (∀ c ∈ E, c ∈ top ∨ AbsenceReasonRounded ρ cfg E c) ∧
      ∀ a ∈ top, ∀ b ∈ top, Generalises a b → (roundX ρ (a.cred.odds.addFin cfg.delta)).lt b.cred.odds = true → b.cred.pval.lt a.cred.pval = true → StayReasonRounded ρ cfg E top b a := by
  obtain ⟨hn, hm⟩ := lengths_spec E
  unfold selectTopK
  set ns := stableSort (fun a b : Nat => decide (a ≤ b)) (E.map (·.pat.len)).dedup with hns
  obtain ⟨top, h1, h2⟩ := lengthsLoop_spec (ρ := ρ) (cfg := cfg) hE hnum hr ns [] [] hn (by simp) (by simp)
    ⟨List.Sublist.refl _, by simp; omega, by simp, by simp, by simp⟩
  rw [List.nil_append] at h2
  have hall : ∀ c, c ∈ ns.flatMap (fun n => E.filter (fun e => decide (e.pat.len = n))) ↔ c ∈ E := by
    intro c
    simp only [List.mem_flatMap, List.mem_filter, decide_eq_true_eq]
    constructor
    · rintro ⟨n, _, h, _⟩; exact h
    · intro h; exact ⟨c.pat.len, (hm _).2 ⟨c, h, rfl⟩, h, rfl⟩
  have hord : (ns.flatMap (fun n => E.filter (fun e => decide (e.pat.len = n)))).Pairwise (QFBefore cfg) := by
    rw [List.pairwise_flatMap]
    refine ⟨fun n _ => ?_, ?_⟩
    · refine (hr.sublist List.filter_sublist).imp_of_mem (fun {a b} ha hb h => ?_)
      rw [List.mem_filter, decide_eq_true_eq] at ha hb
      exact .inr ⟨by omega, h⟩
    · refine hn.imp ?_
      intro m n hmn a ha b hb
      rw [List.mem_filter, decide_eq_true_eq] at ha hb
      exact .inl (by omega)
  have hnodup : (ns.flatMap (fun n => E.filter (fun e => decide (e.pat.len = n)))).Nodup := by
    unfold List.Nodup
    rw [List.pairwise_flatMap]
    refine ⟨fun n _ => hE.nodup.filter _, ?_⟩
    refine hn.imp ?_
    rintro m n hmn a ha b hb rfl
    rw [List.mem_filter, decide_eq_true_eq] at ha hb
    omega
  exact ⟨top, h1, h2.size, fun e he => (hall e).1 (h2.sub.subset he), h2.sub.nodup hnodup, hord.sublist h2.sub, h2.pairs,
    fun c hc => h2.reason c ((hall c).2 hc), fun a ha b hb g1 g2 g3 => by
      obtain ⟨d, d1, d2, d3, d4⟩ := h2.stay a ha b hb g1 g2 g3
      have := hord.sublist d3
      rw [List.pairwise_cons] at this
      exact ⟨d, (hall d).1 d1, d2, this.1 a (by simp), d4⟩⟩

/-! ### credibility -/

section
open Classical
variable {df : Frame} {target : Str × Str}

theorem loop_congr' {f g : Pattern → Except PyErr XF} {p : Pattern} (o : XF) (l : List Selector) (h : ∀ s ∈ l, f (p.copy.remove s) = g (p.copy.remove s))
    (mn mx : XF) : IDSDRounded.loop ρ f p o l mn mx = IDSDRounded.loop ρ g p o l mn mx := by
  induction l generalizing mn mx with
  | nil => rfl
  | cons s l ih =>
    rw [IDSDRounded.loop, IDSDRounded.loop, h s (by simp)]
    cases g (p.copy.remove s) with
    | error e => rfl
    | ok v => exact ih (fun t ht => h t (by simp [ht])) _ _

theorem compute_congr' {f g : Pattern → Except PyErr XF} {p : Pattern} (h0 : 2 ≤ p.len → f p = g p)
    (h : 2 ≤ p.len → ∀ s ∈ p.sels, f (p.copy.remove s) = g (p.copy.remove s)) :
    IDSDRounded.compute ρ f p = IDSDRounded.compute ρ g p := by
  unfold IDSDRounded.compute
  split
  · rfl
  · split
    · rfl
    · have h2 : 2 ≤ p.len := by omega
      rw [h0 h2]
      cases g p with
      | error e => rfl
      | ok o => simp only; rw [loop_congr' o p.sels (h h2)]

theorem glmContrib_ok (cfg : QFConfig) (df : Frame) (target : Str × Str) (p : Pattern) :
    IDSDRounded.compute ρ (fun q => .ok (glmOddsOf cfg df target q.sels)) p = .ok (computedGlmContrib ρ cfg df target p) := by
  obtain ⟨r, hr⟩ := IDSDRounded.compute_ok (ρ := ρ) (fun q => glmOddsOf cfg df target q.sels) p
  unfold computedGlmContrib
  rw [hr]

theorem credOfCol_ok (cfg : QFConfig) {Q : List Pattern} (hQ : Q.Nodup) (hr : ∀ p ∈ Q, Readable p) {p : Pattern} (hp : p ∈ Q)
    (hcl : 2 ≤ p.len → ∀ s ∈ p.sels, p.copy.remove s ∈ Q) :
    credOfCol ρ cfg (cols df Q) (covBits df [targetSel target]) df.nrows (p.str, covBits df p.sels) = .ok (p.str, (computedQFEntry ρ cfg df target Q.length p).cred) := by
  unfold credOfCol
  simp only
  rw [(hr p hp).generate]
  simp only
  rw [compute_congr' (g := fun q => .ok (glmOddsOf cfg df target q.sels)) (fun _ => tableOr_mem cfg hQ hr hp)
    (fun h2 s hs => tableOr_mem cfg hQ hr (hcl h2 s hs)), glmContrib_ok]
  simp only [computedQFEntry, Except.ok.injEq, Prod.mk.injEq, true_and, QFCred.mk.injEq, XF.fin.injEq]
  refine ⟨?_, rfl, rfl, ?_⟩
  · unfold covOf; rw [IDSD.ones_covBits (target := target)]
  · unfold cols; rw [List.length_map]
    show adjusted ρ (glmPOf cfg df target p.sels) Q.length = _
    cases glmPOf cfg df target p.sels with
    | fin q => simp only [adjusted, bonferroni, roundX]; rw [mul_comm]
    | _ => rfl

theorem credTable_ok (cfg : QFConfig) {Q : List Pattern} (hQ : Q.Nodup) (hr : ∀ p ∈ Q, Readable p)
    (hcl : ∀ p ∈ Q, 2 ≤ p.len → ∀ s ∈ p.sels, p.copy.remove s ∈ Q) :
    credTable ρ cfg (cols df Q) (covBits df [targetSel target]) df.nrows = .ok (Q.map (fun p => (p.str, (computedQFEntry ρ cfg df target Q.length p).cred))) := by
  unfold credTable
  have h : cols df Q = Q.map (fun p => (p.str, covBits df p.sels)) := rfl
  conv_lhs => arg 2; rw [h]
  rw [List.mapM_map]
  exact mapM_ok (fun p hp => credOfCol_ok cfg hQ hr hp (hcl p hp))

/-- a missing generalisation is a `KeyError` -/
theorem credOfCol_error (cfg : QFConfig) {Q : List Pattern} (hQ : Q.Nodup) (hr : ∀ p ∈ Q, Readable p) {p : Pattern} (hp : p ∈ Q)
    (h2 : 2 ≤ p.len) {s : Selector} (hs : s ∈ p.sels) (hne : p.copy.remove s ∉ Q) :
    credOfCol ρ cfg (cols df Q) (covBits df [targetSel target]) df.nrows (p.str, covBits df p.sels) = .error .keyError := by
  unfold credOfCol
  simp only
  rw [(hr p hp).generate]
  simp only
  have hloop : ∀ (l : List Selector) (mn mx o : XF), (∀ t ∈ l, t ∈ p.sels) → s ∈ l →
      IDSDRounded.loop ρ (SelectorContribution.tableOr ((cols df Q).map (fun x => (x.1, cfg.glmOr x.2 (covBits df [targetSel target]))))) p o l mn mx =
        .error .keyError := by
    intro l
    induction l with
    | nil => intro _ _ _ _ h; simp at h
    | cons t l ih =>
      intro mn mx o hl hsl
      rw [IDSDRounded.loop]
      by_cases ht : p.copy.remove t ∈ Q
      · rw [tableOr_mem cfg hQ hr ht]
        have hts : t ≠ s := fun h => hne (h ▸ ht)
        exact ih _ _ o (fun u hu => hl u (by simp [hu])) ((List.mem_cons.1 hsl).resolve_left (fun h => hts h.symm))
      · rw [tableOr_not_mem cfg hr ((hr p hp).remove (hl t (by simp))) ht]
  have hc : IDSDRounded.compute ρ (SelectorContribution.tableOr ((cols df Q).map (fun x => (x.1, cfg.glmOr x.2 (covBits df [targetSel target]))))) p =
      .error .keyError := by
    unfold IDSDRounded.compute
    rw [if_neg (by omega), if_neg (by omega), tableOr_mem cfg hQ hr hp]
    simp only
    rw [hloop p.sels _ _ _ (fun _ h => h) hs]
  rw [hc]

theorem credTable_error (cfg : QFConfig) {Q : List Pattern} (hQ : Q.Nodup) (hr : ∀ p ∈ Q, Readable p)
    (hx : ∃ p ∈ Q, 2 ≤ p.len ∧ ∃ s ∈ p.sels, p.copy.remove s ∉ Q) :
    credTable ρ cfg (cols df Q) (covBits df [targetSel target]) df.nrows = .error .keyError := by
  unfold credTable
  have h : cols df Q = Q.map (fun p => (p.str, covBits df p.sels)) := rfl
  conv_lhs => arg 2; rw [h]
  rw [List.mapM_map]
  apply QFinder.mapM_error
  · intro p hp
    by_cases hc : 2 ≤ p.len → ∀ s ∈ p.sels, p.copy.remove s ∈ Q
    · exact .inl ⟨_, credOfCol_ok cfg hQ hr hp hc⟩
    · push Not at hc
      obtain ⟨h2, s, hs, hn⟩ := hc
      exact .inr (credOfCol_error cfg hQ hr hp h2 hs hn)
  · obtain ⟨p, hp, h2, s, hs, hn⟩ := hx
    exact ⟨p, hp, credOfCol_error cfg hQ hr hp h2 hs hn⟩

/-- `fit`, exactly -/
theorem fit_eq (hf : NominalFrame df target) (hs : SafeTexts df target) (st : QFState) :
    fit ρ cfg st df target =
      match selectTopK ρ cfg (rankPatterns cfg ((occurring df (candidates cfg df target.1)).map
        (computedQFEntry ρ cfg df target (occurring df (candidates cfg df target.1)).length))) with
      | .error e => .error e
      | .ok top => .ok ⟨occurring df (candidates cfg df target.1), (occurring df (candidates cfg df target.1)).map (fun p =>
          (p.str, (computedQFEntry ρ cfg df target (occurring df (candidates cfg df target.1)).length p).cred)), top⟩ := by
  set Q := occurring df (candidates cfg df target.1) with hQ
  have hQn : Q.Nodup := (candidates_nodup hf).filter _
  have hr : ∀ p ∈ Q, Readable p := occurring_readable hf hs
  have hcl := occurring_closed (cfg := cfg) hf
  have hb := bitsetLoop_eq hf (candidates cfg df target.1) [] (fun p hp => candidates_cols hf hp) (by
    rw [List.map_nil, List.nil_append]; exact strs_nodup hQn hr)
  rw [List.nil_append] at hb
  have hg : ((cols df Q).map (·.1)).mapM Pattern.generateFromStr = .ok Q := by
    unfold cols
    rw [List.map_map, List.mapM_map]
    exact (mapM_ok (g := id) (fun p hp => (hr p hp).generate)).trans (by rw [List.map_id])
  have hc := credTable_ok (ρ := ρ) (df := df) (target := target) cfg hQn hr hcl
  have hw : Q.mapM (withCred (Q.map (fun p => (p.str, (computedQFEntry ρ cfg df target Q.length p).cred)))) = .ok (Q.map (computedQFEntry ρ cfg df target Q.length)) := by
    apply mapM_ok
    intro p hp
    unfold withCred
    rw [lookup_str hQn hr (fun p => (computedQFEntry ρ cfg df target Q.length p).cred) hp]
    rfl
  unfold fit
  rw [nominal_of hf, targetMask_eq hf, hb]
  simp only [Bool.not_true, Bool.false_eq_true, if_false]
  have e : List.map (fun p => (p.str, covBits df p.sels)) (occurring df (candidates cfg df target.1)) = cols df Q := rfl
  rw [e, hg, hc]
  simp only
  rw [hw]
  rfl

end

end Verif.QFinderRounded

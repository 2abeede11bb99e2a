import Verif.Model.IDSD
import Verif.Lemmas.Credibility
import Verif.Lemmas.Sort
import Verif.Lemmas.Contained
/-! IDSD: rank and the list of the best subgroups. -/
namespace Verif

/-- sorting with an order that is total and transitive on the elements of the list -/
theorem pairwise_stableSort_on {α : Type} {le : α → α → Bool} {P : α → Prop}
    (trans : ∀ a b c, P a → P b → P c → le a b = true → le b c = true → le a c = true)
    (total : ∀ a b, P a → P b → (le a b || le b a) = true) (l : List α) (hl : ∀ a ∈ l, P a) :
    (stableSort le l).Pairwise (fun a b => le a b = true) := by
  have hins : ∀ (a : α) (l : List α), P a → (∀ x ∈ l, P x) → l.Pairwise (fun a b => le a b = true) →
      (sortedInsert le a l).Pairwise (fun a b => le a b = true) := by
    intro a l ha hP hp
    have hmem : ∀ (m : List α) x, x ∈ sortedInsert le a m → x = a ∨ x ∈ m := by
      intro m
      induction m with
      | nil => intro x hx; exact .inl (by simpa [sortedInsert] using hx)
      | cons b m ih =>
        intro x hx
        rw [sortedInsert] at hx
        split at hx
        · simpa using hx
        · rcases List.mem_cons.1 hx with rfl | hx
          · exact .inr (by simp)
          · rcases ih x hx with h | h
            · exact .inl h
            · exact .inr (by simp [h])
    induction l with
    | nil => simp [sortedInsert]
    | cons b l ih =>
      rw [List.pairwise_cons] at hp
      rw [sortedInsert]
      split
      · rename_i h
        rw [List.pairwise_cons, List.pairwise_cons]
        refine ⟨?_, hp⟩
        intro x hx
        rcases List.mem_cons.1 hx with rfl | hx
        · exact h
        · exact trans a b x ha (hP b (by simp)) (hP x (by simp [hx])) h (hp.1 x hx)
      · rename_i h
        rw [List.pairwise_cons]
        refine ⟨?_, ih (fun x hx => hP x (by simp [hx])) hp.2⟩
        intro x hx
        rcases hmem l x hx with rfl | hx
        · have := total b x (hP b (by simp)) ha
          simp only [Bool.or_eq_true] at this
          exact this.resolve_right h
        · exact hp.1 x hx
  unfold stableSort
  induction l with
  | nil => simp
  | cons a l ih =>
    rw [List.foldr_cons]
    refine hins a _ (hl a (by simp)) ?_ (ih (fun x hx => hl x (by simp [hx])))
    intro x hx
    have := (stableSort_perm (le := le) l).mem_iff (a := x)
    exact hl x (by simp [this.1 hx])

namespace IDSD

/-- the rank is the number of criteria met before the first one that is not -/
theorem rankLoop_eq (l : List Bool) (i : Nat) : rankLoop i i l = i + (l.takeWhile id).length := by
  induction l generalizing i with
  | nil => rfl
  | cons b l ih =>
    rw [rankLoop]
    cases b
    · simp
    · simp only [Bool.not_true, Bool.false_eq_true, if_false, ih, List.takeWhile_cons, id, if_true, List.length_cons]
      omega

theorem computeRank_eq (l : List Bool) : computeRank l = (l.takeWhile id).length := by
  rw [computeRank, rankLoop_eq]; omega

/-! ### order of the entries -/

/-- the odds ratio is a number -/
abbrev Num (e : IDSDEntry) : Prop := e.odds ≠ .nan

/-- `a` is not better than `b` -/
def KeyLe (a b : IDSDEntry) : Prop := keyLt b a = false

theorem keyLe_iff {a b : IDSDEntry} (ha : Num a) (hb : Num b) : KeyLe a b ↔ a.rank < b.rank ∨ (a.rank = b.rank ∧ a.odds.le b.odds = true) := by
  unfold KeyLe keyLt
  rw [Bool.or_eq_false_iff, decide_eq_false_iff_not, Bool.and_eq_false_iff, decide_eq_false_iff_not]
  have := XF.lt_iff hb ha
  constructor
  · rintro ⟨h1, h2⟩
    by_cases h : a.rank = b.rank
    · right
      refine ⟨h, ?_⟩
      rcases h2 with h2 | h2
      · exact absurd h.symm h2
      · by_contra hc
        rw [this.2 hc] at h2
        simp at h2
    · left; omega
  · rintro (h | ⟨h1, h2⟩)
    · exact ⟨by omega, .inl (by omega)⟩
    · exact ⟨by omega, .inr (XF.not_lt_of_le h2)⟩

theorem KeyLe.refl {a : IDSDEntry} : KeyLe a a := by simp [KeyLe, keyLt, XF.lt_irrefl]

theorem KeyLe.trans {a b c : IDSDEntry} (ha : Num a) (hb : Num b) (hc : Num c) (h1 : KeyLe a b) (h2 : KeyLe b c) : KeyLe a c := by
  rw [keyLe_iff ha hb] at h1
  rw [keyLe_iff hb hc] at h2
  rw [keyLe_iff ha hc]
  rcases h1 with h1 | ⟨h1, h1'⟩ <;> rcases h2 with h2 | ⟨h2, h2'⟩
  · left; omega
  · left; omega
  · left; omega
  · right; exact ⟨by omega, XF.le_trans h1' h2'⟩

theorem KeyLe.total {a b : IDSDEntry} (ha : Num a) (hb : Num b) : KeyLe a b ∨ KeyLe b a := by
  rw [keyLe_iff ha hb, keyLe_iff hb ha]
  rcases lt_trichotomy a.rank b.rank with h | h | h
  · exact .inl (.inl h)
  · rcases XF.le_total ha hb with h' | h'
    · exact .inl (.inr ⟨h, h'⟩)
    · exact .inr (.inr ⟨h.symm, h'⟩)
  · exact .inr (.inl h)

theorem keyLe_of_lt {a b : IDSDEntry} (ha : Num a) (hb : Num b) (h : keyLt a b = true) : KeyLe a b := by
  rcases KeyLe.total ha hb with h' | h'
  · exact h'
  · rw [KeyLe, h] at h'; simp at h'

theorem better_eq (a b : IDSDEntry) : better a b = keyLt b a := by
  simp [better, keyLt, eq_comm (a := a.rank)]

/-- invariants of `_top_k_subgroups` -/
structure TopInv (num : Nat) (top : List IDSDEntry) : Prop where
  size : top.length ≤ num
  sorted : top.Pairwise (fun a b => KeyLe b a)
  distinct : (top.map (·.pat)).Nodup
  num : ∀ e ∈ top, Num e

theorem kept_eq {top : List IDSDEntry} (hn : top.Nodup) (P : IDSDEntry → Bool) :
    (top.filter P).foldl (fun l s => l.erase s) top = top.filter (fun s => !P s) := by
  have h : (top.filter P).foldl (fun l s => l.erase s) top = top.diff (top.filter P) := (List.diff_eq_foldl _ _).symm
  rw [h, List.Nodup.sdiff_eq_filter hn]
  apply List.filter_congr
  intro x hx
  simp [hx]

theorem TopInv.nodup {num : Nat} {top : List IDSDEntry} (h : TopInv num top) : top.Nodup := List.Nodup.of_map _ h.distinct

/-- every element is at most the first -/
theorem TopInv.le_head {num : Nat} {h : IDSDEntry} {top : List IDSDEntry} (hi : TopInv num (h :: top)) : ∀ e ∈ h :: top, KeyLe e h := by
  intro e he
  rcases List.mem_cons.1 he with rfl | he
  · exact KeyLe.refl
  · exact (List.pairwise_cons.1 hi.sorted).1 e he

/-- every element is at least the last -/
theorem TopInv.last_le {num : Nat} {w : IDSDEntry} {top : List IDSDEntry} (hi : TopInv num top) (hw : top.getLast? = some w) : ∀ e ∈ top, KeyLe w e := by
  obtain ⟨l, rfl⟩ := List.getLast?_eq_some_iff.1 hw
  intro e he
  rcases List.mem_append.1 he with he | he
  · exact (List.pairwise_append.1 hi.sorted).2.2 e he w (by simp)
  · rw [List.mem_singleton.1 he]; exact KeyLe.refl

theorem topKUpdate_spec {num : Nat} (hnum : 0 < num) {top : List IDSDEntry} {new : IDSDEntry} (hi : TopInv num top) (hnew : Num new)
    (hfresh : new.pat ∉ top.map (·.pat)) :
    TopInv num (topKUpdate num top new) ∧
    (∀ e ∈ topKUpdate num top new, e ∈ top ∨ e = new) ∧
    (new ∈ topKUpdate num top new → ∀ e ∈ topKUpdate num top new, e ≠ new → redundant e.pat new.pat = true → KeyLe new e) ∧
    (∀ e, e ∈ top ∨ e = new → ∃ h ∈ topKUpdate num top new, KeyLe e h) := by
  unfold topKUpdate
  split
  · rename_i h
    obtain ⟨h1, h2⟩ := h
    refine ⟨hi, fun e he => .inl he, fun hm => absurd (List.mem_map_of_mem hm) hfresh, ?_⟩
    rintro e (he | rfl)
    · exact ⟨e, he, KeyLe.refl⟩
    · cases hl : top.getLast? with
      | none => simp [worseThanLast, hl] at h2
      | some w =>
        simp only [worseThanLast, hl] at h2
        have hw := List.mem_of_getLast? hl
        exact ⟨w, hw, keyLe_of_lt hnew (hi.num w hw) h2⟩
  · simp only
    rw [kept_eq hi.nodup]
    split
    · rename_i hadd
      set K := top.filter (fun s => !(redundant s.pat new.pat && better new s)) with hK
      have hKsub : ∀ e ∈ K, e ∈ top := fun e he => List.mem_of_mem_filter he
      set L := stableSort (fun a b => !keyLt a b) (K ++ [new]) with hL
      have hperm : L.Perm (K ++ [new]) := stableSort_perm _
      have hmem : ∀ e, e ∈ L ↔ e ∈ K ∨ e = new := fun e => by rw [hperm.mem_iff]; simp
      have hnumL : ∀ e ∈ K ++ [new], Num e := by
        intro e he
        rcases List.mem_append.1 he with he | he
        · exact hi.num e (hKsub e he)
        · rw [List.mem_singleton.1 he]; exact hnew
      have hsorted : L.Pairwise (fun a b => KeyLe b a) := by
        have := pairwise_stableSort_on (le := fun a b => !keyLt a b) (P := Num)
          (fun a b c ha hb hc h1 h2 => by
            simp only [Bool.not_eq_true', ] at *
            exact KeyLe.trans hc hb ha h2 h1)
          (fun a b ha hb => by
            simp only [Bool.or_eq_true, Bool.not_eq_true']
            rcases KeyLe.total ha hb with h | h
            · exact .inr h
            · exact .inl h) (K ++ [new]) hnumL
        exact this.imp (fun h => by simpa [KeyLe] using h)
      have hdist : (L.map (·.pat)).Nodup := by
        rw [(hperm.map _).nodup_iff, List.map_append, List.nodup_append]
        refine ⟨(hi.distinct.sublist (List.Sublist.map _ List.filter_sublist)), by simp, ?_⟩
        intro a ha b hb
        simp only [List.map_cons, List.map_nil, List.mem_singleton] at hb
        rintro rfl
        obtain ⟨e, he, rfl⟩ := List.mem_map.1 ha
        exact hfresh (hb ▸ List.mem_map_of_mem (hKsub e he))
      have hlen : L.length = K.length + 1 := by rw [hperm.length_eq]; simp
      have hKlen : K.length ≤ num := (List.length_filter_le _ _).trans hi.size
      have hLinv : ∀ e ∈ L, Num e := fun e he => hnumL e (hperm.mem_iff.1 he)
      -- the elements of the old list are dominated before the last element is dropped
      have hdom : ∀ e, e ∈ top ∨ e = new → ∃ h ∈ L, KeyLe e h := by
        rintro e (he | rfl)
        · by_cases hk : e ∈ K
          · exact ⟨e, (hmem e).2 (.inl hk), KeyLe.refl⟩
          · rw [hK, List.mem_filter] at hk
            push Not at hk
            have := hk he
            simp only [ne_eq, Bool.not_eq_true', Bool.not_eq_false, Bool.and_eq_true, better_eq] at this
            exact ⟨new, (hmem new).2 (.inr rfl), keyLe_of_lt (hi.num e he) hnew this.2⟩
        · exact ⟨e, (hmem e).2 (.inr rfl), KeyLe.refl⟩
      have hred : ∀ e ∈ L, e ≠ new → redundant e.pat new.pat = true → KeyLe new e := by
        intro e he hne hr
        have hk := ((hmem e).1 he).resolve_right hne
        rw [hK, List.mem_filter] at hk
        have := hk.2
        simp only [hr, Bool.true_and, Bool.not_eq_true', better_eq] at this
        exact this
      have hprov : ∀ e ∈ L, e ∈ top ∨ e = new := fun e he => ((hmem e).1 he).imp (hKsub e) id
      split
      · rename_i hgt
        have hsub : L.dropLast.Sublist L := List.dropLast_sublist L
        refine ⟨⟨by rw [List.length_dropLast]; omega, hsorted.sublist hsub, hdist.sublist (hsub.map _), fun e he => hLinv e (hsub.subset he)⟩,
          fun e he => hprov e (hsub.subset he), fun _ e he => hred e (hsub.subset he), ?_⟩
        intro e he
        obtain ⟨h, hh, hle⟩ := hdom e he
        match L, hlen, hgt, hsorted, hLinv, hh with
        | a :: b :: L', _, _, hsorted, hLinv, hh =>
          refine ⟨a, by simp, ?_⟩
          have he' : Num e := by
            rcases he with he | rfl
            · exact hi.num e he
            · exact hnew
          refine KeyLe.trans he' (hLinv h hh) (hLinv a (by simp)) hle ?_
          rcases List.mem_cons.1 hh with rfl | hh
          · exact KeyLe.refl
          · exact (List.pairwise_cons.1 hsorted).1 h hh
        | [a], hlen, hgt, _, _, _ =>
          simp at hgt; omega
      · refine ⟨⟨by omega, hsorted, hdist, hLinv⟩, hprov, fun _ => hred, hdom⟩
    · rename_i hadd
      simp only [Bool.or_eq_true, Bool.not_eq_true', not_or, Bool.not_eq_false, Bool.not_eq_true] at hadd
      obtain ⟨h1, h2⟩ := hadd
      have hk : top.filter (fun s => !(redundant s.pat new.pat && better new s)) = top := by
        rw [List.filter_eq_self]
        intro e he
        rw [List.isEmpty_iff, List.filter_eq_nil_iff] at h1
        have := h1 e he
        cases hb : (redundant e.pat new.pat && better new e)
        · rfl
        · exact absurd hb this
      rw [hk]
      refine ⟨hi, fun e he => .inl he, fun hm => absurd (List.mem_map_of_mem hm) hfresh, ?_⟩
      rintro e (he | rfl)
      · exact ⟨e, he, KeyLe.refl⟩
      · rw [List.any_eq_true] at h2
        obtain ⟨s, hs, h2⟩ := h2
        simp only [Bool.and_eq_true, Bool.not_eq_true', better_eq] at h2
        exact ⟨s, hs, h2.2⟩

end IDSD
end Verif

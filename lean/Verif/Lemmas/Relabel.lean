import Verif.Spec.Relabel
import Verif.Lemmas.Shuffle
import Verif.Lemmas.IDSD
import Verif.Props.SDMap
/-! Lemmas for C97, C98: counts on renamed and repeated data. -/
namespace Verif
open Spec
section
open Classical
variable {ρ : Str → Str} {ν : Str → Str → Str} {k : Nat} {df df' : Frame} {π : List Nat} {target : Str × Str}

theorem mem_copies {n j : Nat} (hk : 0 < k) : j ∈ (List.replicate k (List.range n)).flatten ↔ j < n := by
  rw [List.mem_flatten]
  constructor
  · rintro ⟨l, hl, hj⟩
    rw [(List.mem_replicate.1 hl).2] at hj
    exact List.mem_range.1 hj
  · exact fun h => ⟨_, List.mem_replicate.2 ⟨by omega, rfl⟩, List.mem_range.2 h⟩

theorem copies_length {n : Nat} : (List.replicate k (List.range n)).flatten.length = k * n := by
  simp

theorem copies_filter {n : Nat} (p : Nat → Bool) : ((List.replicate k (List.range n)).flatten.filter p).length = k * ((List.range n).filter p).length := by
  induction k with
  | zero => simp
  | succ k ih => rw [List.replicate_succ, List.flatten_cons, List.filter_append, List.length_append, ih]; ring

theorem Spec.Relabelled.len (h : Relabelled ρ ν k df df' π) : π.length = df'.nrows := by
  rw [h.perm.length_eq, copies_length, h.rows]

theorem relabel_row (h : Relabelled ρ ν k df df' π) {i : Nat} (hi : i < df'.nrows) : ∃ j, π[i]? = some j ∧ j < df.nrows := by
  have hl := h.len
  refine ⟨π[i], List.getElem?_eq_getElem (by omega), ?_⟩
  exact (mem_copies h.copies).1 (h.perm.mem_iff.1 (List.getElem_mem _))

theorem relabel_row' (h : Relabelled ρ ν k df df' π) {j : Nat} (hj : j < df.nrows) : ∃ i, π[i]? = some j ∧ i < df'.nrows := by
  have : j ∈ π := h.perm.mem_iff.2 ((mem_copies h.copies).2 hj)
  obtain ⟨i, hi⟩ := List.mem_iff_getElem?.1 this
  obtain ⟨hlt, _⟩ := List.getElem?_eq_some_iff.1 hi
  exact ⟨i, hi, by rw [← h.len]; exact hlt⟩

theorem relabel_count (h : Relabelled ρ ν k df df' π) {P P' : Nat → Prop} [DecidablePred P] [DecidablePred P'] (hp : ∀ i j : Nat, π[i]? = some j → (P' i ↔ P j)) :
    ((List.range df'.nrows).filter (fun i => decide (P' i))).length = k * ((List.range df.nrows).filter (fun i => decide (P i))).length := by
  have hl := h.len
  have hm : π = (List.range df'.nrows).map (fun i => π.getD i 0) := by
    apply List.ext_getElem?
    intro i
    by_cases hi : i < df'.nrows
    · rw [List.getElem?_map, List.getElem?_range hi, Option.map_some, List.getD_eq_getElem?_getD, List.getElem?_eq_getElem (by omega)]
      rfl
    · rw [List.getElem?_eq_none (by omega), List.getElem?_eq_none (by simp; omega)]
  rw [← copies_filter, ← ((h.perm.filter (fun i => decide (P i)))).length_eq]
  conv_rhs => rw [hm]
  rw [List.filter_map, List.length_map]
  congr 1
  apply List.filter_congr
  intro i hi
  have hi' : i < π.length := by rw [hl]; exact List.mem_range.1 hi
  have := hp i (π[i]) (List.getElem?_eq_getElem hi')
  simp only [Function.comp_apply, List.getD_eq_getElem?_getD, List.getElem?_eq_getElem hi', Option.getD_some]
  exact decide_eq_decide.2 this

theorem relabel_cell (h : Relabelled ρ ν k df df' π) {name : Str} {col : List Val} (hc : df.cols.lookup name = some col) {i j : Nat} (hj : π[i]? = some j) :
    ∃ col', df'.cols.lookup (ρ name) = some col' ∧ col'[i]? = (col[j]?).map (renameVal (ν name)) := by
  obtain ⟨col', h1, h2⟩ := h.cells name col hc
  refine ⟨col', h1, ?_⟩
  have := congrArg (fun l => l[i]?) h2
  simp only [List.getElem?_map, hj, Option.map_some] at this
  cases hx : col'[i]? with
  | none => rw [hx] at this; simp at this
  | some v => rw [hx] at this; simp only [Option.map_some, Option.some.injEq] at this; rw [← this]

theorem relabel_nominal (h : Relabelled ρ ν k df df' π) (hf : NominalFrame df target) : NominalFrame df' (renameTarget ρ ν target) := by
  have hn : (df'.cols.map (·.1)).Nodup := by
    rw [h.columns.nodup_iff]
    have := hf.names.map h.names
    rwa [List.map_map] at this
  have hcol : ∀ c ∈ df'.cols, ∃ a col, df.cols.lookup a = some col ∧ c.2.map some = π.map (fun i : Nat => (col[i]?).map (renameVal (ν a))) := by
    intro c hc
    have : c.1 ∈ df.cols.map (fun c => ρ c.1) := h.columns.mem_iff.1 (List.mem_map_of_mem hc)
    obtain ⟨e, he, hr⟩ := List.mem_map.1 this
    have hl := lookup_of_mem_nodup hf.names he
    obtain ⟨col', h1, h2⟩ := h.cells _ _ hl
    rw [hr, lookup_of_mem_nodup hn hc] at h1
    cases h1
    exact ⟨e.1, e.2, hl, h2⟩
  refine ⟨?_, hn, ?_, ?_⟩
  · intro c hc
    obtain ⟨a, col, _, h2⟩ := hcol c hc
    have := congrArg List.length h2
    rw [List.length_map, List.length_map, h.len] at this
    exact this
  · intro c hc v hv
    obtain ⟨a, col, h1, h2⟩ := hcol c hc
    have : some v ∈ π.map (fun i : Nat => (col[i]?).map (renameVal (ν a))) := by rw [← h2]; exact List.mem_map_of_mem hv
    obtain ⟨i, _, hi⟩ := List.mem_map.1 this
    obtain ⟨w, hw, rfl⟩ := Option.map_eq_some_iff.1 hi
    obtain ⟨s, rfl⟩ := hf.texts _ (mem_of_lookup h1) w (List.mem_of_getElem? hw)
    exact ⟨_, rfl⟩
  · obtain ⟨c, hc, he⟩ := List.mem_map.1 hf.target
    exact h.columns.mem_iff.2 (List.mem_map.2 ⟨c, hc, by rw [he]; rfl⟩)

theorem TextEq.rename {s : Selector} (h : TextEq s) : TextEq (renameSel ρ ν s) := by
  obtain ⟨h1, v, h2⟩ := h
  exact ⟨h1, ν s.attr v, by unfold renameSel; rw [h2]; rfl⟩

theorem rename_inj (hρ : Function.Injective ρ) (hν : ∀ a, Function.Injective (ν a)) {s t : Selector} (hs : TextEq s) (ht : TextEq t) (h : renameSel ρ ν s = renameSel ρ ν t) : s = t := by
  obtain ⟨a, o, x⟩ := s
  obtain ⟨b, o', y⟩ := t
  obtain ⟨h1, v, h2⟩ := hs
  obtain ⟨h3, w, h4⟩ := ht
  simp only at h1 h2 h3 h4
  subst h1 h2 h3 h4
  simp only [renameSel, renameVal, Selector.mk.injEq, Val.str.injEq] at h
  obtain ⟨e1, _, e2⟩ := h
  have := hρ e1
  subst this
  rw [hν _ e2]

theorem relabel_matches (h : Relabelled ρ ν k df df' π) (hf : NominalFrame df target) {s : Selector} (hs : TextEq s) {i j : Nat} (hj : π[i]? = some j) :
    MatchesAt df' (renameSel ρ ν s) i ↔ MatchesAt df s j := by
  obtain ⟨a, o, x⟩ := s
  obtain ⟨h1, v, h2⟩ := hs
  simp only at h1 h2
  subst h1 h2
  simp only [renameSel, renameVal]
  rw [matchesAt_iff (relabel_nominal h hf), matchesAt_iff hf]
  have hf' := relabel_nominal h hf
  constructor
  · rintro ⟨c, hc, he, hv⟩
    have : c.1 ∈ df.cols.map (fun c => ρ c.1) := h.columns.mem_iff.1 (List.mem_map_of_mem hc)
    obtain ⟨e, hm, hr⟩ := List.mem_map.1 this
    have ha : e.1 = a := h.names (by rw [hr, he])
    obtain ⟨col', k1, k2⟩ := relabel_cell h (lookup_of_mem_nodup hf.names hm) hj
    rw [hr, lookup_of_mem_nodup hf'.names hc] at k1
    cases k1
    rw [hv] at k2
    obtain ⟨w, hw, hx⟩ := Option.map_eq_some_iff.1 k2.symm
    obtain ⟨u, rfl⟩ := hf.texts _ hm w (List.mem_of_getElem? hw)
    simp only [renameVal, Val.str.injEq, ha] at hx
    exact ⟨e, hm, ha, by rw [hw, h.values _ hx]⟩
  · rintro ⟨c, hc, rfl, hv⟩
    obtain ⟨col', k1, k2⟩ := relabel_cell h (lookup_of_mem_nodup hf.names hc) hj
    exact ⟨(ρ c.1, col'), mem_of_lookup k1, rfl, by rw [k2, hv]; rfl⟩

/-- the renamed description -/
def ren (ρ : Str → Str) (ν : Str → Str → Str) (X : List Selector) : List Selector := (renamePattern ρ ν ⟨X⟩).sels

theorem mem_ren {X : List Selector} (hX : ∀ s ∈ X, TextEq s) (t : Selector) : t ∈ ren ρ ν X ↔ ∃ s ∈ X, renameSel ρ ν s = t := by
  have : ∀ s ∈ X.map (renameSel ρ ν), TextEq s := by
    intro s hs
    obtain ⟨u, hu, rfl⟩ := List.mem_map.1 hs
    exact (hX u hu).rename
  unfold ren renamePattern
  rw [(new_text this).2 t, List.mem_map]

theorem ren_text {X : List Selector} (hX : ∀ s ∈ X, TextEq s) : ∀ s ∈ ren ρ ν X, TextEq s := by
  intro t ht
  obtain ⟨s, hs, rfl⟩ := (mem_ren hX t).1 ht
  exact (hX s hs).rename

theorem ren_sorted {X : List Selector} (hX : ∀ s ∈ X, TextEq s) : (ren ρ ν X).Pairwise (fun a b => a.lt b = true) := by
  have : ∀ s ∈ X.map (renameSel ρ ν), TextEq s := by
    intro s hs
    obtain ⟨u, hu, rfl⟩ := List.mem_map.1 hs
    exact (hX u hu).rename
  exact (sorted_iff_lt (ren_text hX)).2 (new_text this).1

theorem ren_nil : ren ρ ν [] = [] := rfl

theorem ren_covers (h : Relabelled ρ ν k df df' π) (hf : NominalFrame df target) {X : List Selector} (hX : ∀ s ∈ X, TextEq s) {i j : Nat} (hj : π[i]? = some j) :
    Covers df' (ren ρ ν X) i ↔ Covers df X j := by
  constructor
  · intro hc s hs
    exact (relabel_matches h hf (hX s hs) hj).1 (hc _ ((mem_ren hX _).2 ⟨s, hs, rfl⟩))
  · intro hc t ht
    obtain ⟨s, hs, rfl⟩ := (mem_ren hX t).1 ht
    exact (relabel_matches h hf (hX s hs) hj).2 (hc s hs)

theorem target_text : TextEq (targetSel target) := ⟨rfl, _, rfl⟩

theorem rename_targetSel : renameSel ρ ν (targetSel target) = targetSel (renameTarget ρ ν target) := rfl

theorem ren_tp (h : Relabelled ρ ν k df df' π) (hf : NominalFrame df target) {X : List Selector} (hX : ∀ s ∈ X, TextEq s) :
    tpOf df' (renameTarget ρ ν target) (ren ρ ν X) = k * tpOf df target X :=
  relabel_count h (fun _ _ hj => and_congr (ren_covers h hf hX hj) (by rw [← rename_targetSel]; exact relabel_matches h hf target_text hj))

theorem ren_fp (h : Relabelled ρ ν k df df' π) (hf : NominalFrame df target) {X : List Selector} (hX : ∀ s ∈ X, TextEq s) :
    fpOf df' (renameTarget ρ ν target) (ren ρ ν X) = k * fpOf df target X :=
  relabel_count h (fun _ _ hj => and_congr (ren_covers h hf hX hj) (not_congr (by rw [← rename_targetSel]; exact relabel_matches h hf target_text hj)))

theorem ren_occurs (h : Relabelled ρ ν k df df' π) (hf : NominalFrame df target) {X : List Selector} (hX : ∀ s ∈ X, TextEq s) : OccursIn df' (ren ρ ν X) ↔ OccursIn df X := by
  constructor
  · rintro ⟨i, hi, hc⟩
    obtain ⟨j, hj, hlt⟩ := relabel_row h hi
    exact ⟨j, hlt, (ren_covers h hf hX hj).1 hc⟩
  · rintro ⟨j, hj, hc⟩
    obtain ⟨i, hi, hlt⟩ := relabel_row' h hj
    exact ⟨i, hlt, (ren_covers h hf hX hi).2 hc⟩

theorem ren_describes (h : Relabelled ρ ν k df df' π) {X : List Selector} (hX : ∀ s ∈ X, TextEq s) : Describes (renameTarget ρ ν target) (ren ρ ν X) ↔ Describes target X := by
  unfold Describes
  constructor
  · rintro ⟨h1, h2⟩
    refine ⟨fun hn => h1 (by rw [hn]; rfl), fun s hs => ⟨fun he => ?_, hX s hs⟩⟩
    exact (h2 _ ((mem_ren hX _).2 ⟨s, hs, rfl⟩)).1 (congrArg ρ he)
  · rintro ⟨h1, h2⟩
    constructor
    · intro hn
      obtain ⟨s, hs⟩ := List.exists_mem_of_ne_nil _ h1
      have := (mem_ren (ρ := ρ) (ν := ν) hX _).2 ⟨s, hs, rfl⟩
      rw [hn] at this
      cases this
    · intro t ht
      obtain ⟨s, hs, rfl⟩ := (mem_ren hX t).1 ht
      exact ⟨fun he => (h2 s hs).1 (h.names he), (hX s hs).rename⟩

/-- a description that occurs in the renamed data is the renamed form of one that occurs in the data -/
theorem ren_surj (h : Relabelled ρ ν k df df' π) (hf : NominalFrame df target) {Y : List Selector} (hd : Describes (renameTarget ρ ν target) Y)
    (hs : Y.Pairwise (fun a b => a.lt b = true)) (ho : OccursIn df' Y) :
    ∃ X, Describes target X ∧ X.Pairwise (fun a b => a.lt b = true) ∧ OccursIn df X ∧ ren ρ ν X = Y := by
  obtain ⟨i, hi, hc⟩ := ho
  obtain ⟨j, hj, hlt⟩ := relabel_row h hi
  have hY := textEq_of_describes hd
  have hpre : ∀ t ∈ Y, ∃ s, TextEq s ∧ renameSel ρ ν s = t := by
    intro t ht
    obtain ⟨o, v, hv⟩ := hY t ht
    obtain ⟨a, o', x⟩ := t
    simp only at o hv
    subst o hv
    obtain ⟨c, hcm, he, hcv⟩ := (matchesAt_iff (relabel_nominal h hf) _ _ _).1 (hc _ ht)
    have : c.1 ∈ df.cols.map (fun c => ρ c.1) := h.columns.mem_iff.1 (List.mem_map_of_mem hcm)
    obtain ⟨e, hm, hr⟩ := List.mem_map.1 this
    obtain ⟨col', k1, k2⟩ := relabel_cell h (lookup_of_mem_nodup hf.names hm) hj
    rw [hr, lookup_of_mem_nodup (relabel_nominal h hf).names hcm] at k1
    cases k1
    rw [hcv] at k2
    obtain ⟨w, hw, hx⟩ := Option.map_eq_some_iff.1 k2.symm
    obtain ⟨u, rfl⟩ := hf.texts _ hm w (List.mem_of_getElem? hw)
    exact ⟨⟨e.1, .equal, .str u⟩, ⟨rfl, u, rfl⟩, by unfold renameSel; simp only; rw [hr, he, hx]⟩
  choose! f hf1 hf2 using hpre
  have hZ : ∀ s ∈ Y.map f, TextEq s := by
    intro s hs
    obtain ⟨t, ht, rfl⟩ := List.mem_map.1 hs
    exact hf1 t ht
  obtain ⟨n1, n2⟩ := new_text hZ
  have hX : ∀ s ∈ (Pattern.new (Y.map f)).sels, TextEq s := fun s hs => hZ s ((n2 s).1 hs)
  have hren : ren ρ ν (Pattern.new (Y.map f)).sels = Y := by
    refine sorted_ext ((sorted_iff_lt (ren_text hX)).1 (ren_sorted hX)) ((sorted_iff_lt hY).1 hs) (ren_text hX) (fun t => ?_)
    rw [mem_ren hX]
    constructor
    · rintro ⟨s, hs, rfl⟩
      obtain ⟨t, ht, rfl⟩ := List.mem_map.1 ((n2 s).1 hs)
      rw [hf2 t ht]; exact ht
    · exact fun ht => ⟨f t, (n2 _).2 (List.mem_map_of_mem ht), hf2 t ht⟩
  refine ⟨_, (ren_describes h hX).1 (by rw [hren]; exact hd), (sorted_iff_lt hX).2 n1, (ren_occurs h hf hX).1 (by rw [hren]; exact ⟨i, hi, hc⟩), hren⟩

theorem ren_inj (h : Relabelled ρ ν k df df' π) {X Y : List Selector} (hX : ∀ s ∈ X, TextEq s) (hY : ∀ s ∈ Y, TextEq s)
    (sX : X.Pairwise (fun a b => a.lt b = true)) (sY : Y.Pairwise (fun a b => a.lt b = true)) (he : ren ρ ν X = ren ρ ν Y) : X = Y := by
  refine sorted_ext ((sorted_iff_lt hX).1 sX) ((sorted_iff_lt hY).1 sY) hX (fun s => ⟨fun hs => ?_, fun hs => ?_⟩)
  · have : renameSel ρ ν s ∈ ren ρ ν Y := by rw [← he]; exact (mem_ren hX _).2 ⟨s, hs, rfl⟩
    obtain ⟨t, ht, e⟩ := (mem_ren hY _).1 this
    rw [← rename_inj h.names h.values (hY t ht) (hX s hs) e]; exact ht
  · have : renameSel ρ ν s ∈ ren ρ ν X := by rw [he]; exact (mem_ren hY _).2 ⟨s, hs, rfl⟩
    obtain ⟨t, ht, e⟩ := (mem_ren hX _).1 this
    rw [← rename_inj h.names h.values (hX t ht) (hY s hs) e]; exact ht
end
end Verif

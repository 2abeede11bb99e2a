import Verif.Lemmas.FPTree
import Verif.Lemmas.Sort
/-! Header, nodes, horizontal lists, dictionaries and sorted rows in terms of the database. -/
set_option linter.unusedSectionVars false
set_option linter.unusedSimpArgs false
namespace Verif
open Classical
namespace FPTree
variable {σ κ : Type} [DecidableEq σ] [DecidableEq κ]

/-- total weight of the transactions containing `X` -/
noncomputable def supp (D : DB σ) (X : List σ) : Cnt := wsum D (fun l => ∀ x ∈ X, x ∈ l)

theorem wsum_const {α : Type} {K : List α} (hn : K.Nodup) (c : Cnt) (q : α) :
    wsum (K.map (fun k => (k, c))) (· = q) = if q ∈ K then c else 0 := by
  induction K with
  | nil => simp
  | cons k K ih =>
    simp only [List.nodup_cons] at hn
    simp only [List.map_cons, wsum_cons, ih hn.2, List.mem_cons]
    by_cases h : k = q
    · subst h; simp [hn.1]
    · have h' : ¬ q = k := fun hh => h hh.symm
      simp [h, h']

theorem prefixes_nodup (p l : List σ) : (prefixes p l).Nodup := by
  induction l generalizing p with
  | nil => simp [prefixes]
  | cons s l ih =>
    simp only [prefixes, List.nodup_cons]
    refine ⟨?_, ih _⟩
    rw [mem_prefixes]
    rintro ⟨r, h1, _, h3⟩
    have := congrArg List.length h3
    simp only [List.length_append] at this
    exact h1 (List.length_eq_zero_iff.1 (by omega))

theorem wsum_headItems {D : DB σ} (hn : ∀ t ∈ D, t.1.Nodup) (s : σ) :
    wsum (headItems D) (· = s) = wsum D (fun l => s ∈ l) := by
  rw [headItems, wsum_flatMap, wsum_eq_sum]
  congr 1
  apply List.map_congr_left
  intro t ht
  rw [wsum_const (hn t ht)]
  congr

theorem mem_headItems (D : DB σ) (s : σ) : s ∈ keys (headItems D) ↔ ∃ t ∈ D, s ∈ t.1 := by
  simp only [keys, headItems, List.map_flatMap, List.mem_flatMap, List.map_map, List.mem_map, Function.comp_apply]
  constructor
  · rintro ⟨t, ht, a, ha, rfl⟩; exact ⟨t, ht, ha⟩
  · rintro ⟨t, ht, ha⟩; exact ⟨t, ht, s, ha, rfl⟩

theorem wsum_nodeItems (D : DB σ) {p : List σ} (hp : p ≠ []) :
    wsum (nodeItems D) (· = p) = wsum D (fun l => p <+: l) := by
  rw [nodeItems, wsum_flatMap, wsum_eq_sum]
  congr 1
  apply List.map_congr_left
  intro t _
  rw [wsum_const (prefixes_nodup _ _)]
  have : p ∈ prefixes [] t.1 ↔ p <+: t.1 := by
    rw [mem_prefixes]
    constructor
    · rintro ⟨r, _, h, rfl⟩; simpa using h
    · intro h; exact ⟨p, hp, h, rfl⟩
  by_cases h : p <+: t.1
  · rw [if_pos h, if_pos (this.2 h)]
  · rw [if_neg h, if_neg (fun hh => h (this.1 hh))]

theorem mem_nodeItems (D : DB σ) (p : List σ) : p ∈ keys (nodeItems D) ↔ p ≠ [] ∧ ∃ t ∈ D, p <+: t.1 := by
  simp only [keys, nodeItems, List.map_flatMap, List.mem_flatMap, List.map_map, List.mem_map, Function.comp_apply, mem_prefixes]
  constructor
  · rintro ⟨t, ht, a, ⟨r, h1, h2, rfl⟩, rfl⟩; exact ⟨by simpa using h1, t, ht, by simpa using h2⟩
  · rintro ⟨h, t, ht, ha⟩; exact ⟨t, ht, p, ⟨p, h, ha, rfl⟩, rfl⟩

theorem header_lookup {t : FPTree σ} {D : DB σ} (h : Holds t D) (hn : ∀ t ∈ D, t.1.Nodup) (s : σ) :
    t.header.lookup s = if (∃ r ∈ D, s ∈ r.1) then some (wsum D (fun l => s ∈ l)) else none := by
  rw [h.header, lookup_accum, wsum_headItems hn]
  by_cases hs : ∃ r ∈ D, s ∈ r.1
  · rw [if_pos hs, if_pos ((mem_headItems D s).2 hs)]
  · rw [if_neg hs, if_neg (fun hh => hs ((mem_headItems D s).1 hh))]

theorem mem_header {t : FPTree σ} {D : DB σ} (h : Holds t D) (s : σ) : s ∈ t.header.map (·.1) ↔ ∃ r ∈ D, s ∈ r.1 := by
  rw [h.header, ← mem_headItems, ← mem_keys_accum]; rfl

theorem nodup_header {t : FPTree σ} {D : DB σ} (h : Holds t D) : (t.header.map (·.1)).Nodup := by
  rw [h.header]; exact nodup_accum _

theorem node_lookup {t : FPTree σ} {D : DB σ} (h : Holds t D) (p : List σ) :
    t.nodes.lookup p = if p ≠ [] ∧ (∃ r ∈ D, p <+: r.1) then some (wsum D (fun l => p <+: l)) else none := by
  rw [h.nodes, lookup_accum]
  by_cases hs : p ≠ [] ∧ ∃ r ∈ D, p <+: r.1
  · rw [if_pos hs, if_pos ((mem_nodeItems D p).2 hs), wsum_nodeItems D hs.1]
  · rw [if_neg hs, if_neg (fun hh => hs ((mem_nodeItems D p).1 hh))]

theorem mem_nodes {t : FPTree σ} {D : DB σ} (h : Holds t D) (p : List σ) :
    p ∈ t.nodes.map (·.1) ↔ p ≠ [] ∧ ∃ r ∈ D, p <+: r.1 := by
  rw [h.nodes, ← mem_nodeItems, ← mem_keys_accum]; rfl

theorem nodup_nodes {t : FPTree σ} {D : DB σ} (h : Holds t D) : (t.nodes.map (·.1)).Nodup := by
  rw [h.nodes]; exact nodup_accum _

/-! ### children -/

theorem mem_children {t : FPTree σ} (p : List σ) (s : σ) : s ∈ t.children p ↔ p ++ [s] ∈ t.nodes.map (·.1) := by
  simp only [children, List.mem_filterMap, List.mem_map]
  constructor
  · rintro ⟨e, he, h⟩
    cases hl : e.1.getLast? with
    | none => rw [hl] at h; simp at h
    | some x =>
      rw [hl] at h
      simp only at h
      by_cases hx : e.1 = p ++ [x]
      · rw [if_pos hx] at h
        simp only [Option.some.injEq] at h
        exact ⟨e, he, by rw [hx, h]⟩
      · rw [if_neg hx] at h; simp at h
  · rintro ⟨e, he, h⟩
    refine ⟨e, he, ?_⟩
    rw [h]; simp

theorem isEmpty_iff {t : FPTree σ} {D : DB σ} (h : Holds t D) : t.isEmpty = true ↔ ∀ r ∈ D, r.1 = [] := by
  have h1 : t.isEmpty = true ↔ t.children [] = [] := by simp [isEmpty]
  rw [h1, List.eq_nil_iff_forall_not_mem]
  constructor
  · intro hc r hr
    cases hl : r.1 with
    | nil => rfl
    | cons x l =>
      exfalso
      apply hc x
      rw [mem_children, mem_nodes h]
      exact ⟨by simp, r, hr, by simp [hl]⟩
  · intro hc s hs
    rw [mem_children, mem_nodes h] at hs
    obtain ⟨_, r, hr, hp⟩ := hs
    rw [hc r hr] at hp
    simp at hp

/-! ### horizontal lists -/

theorem wsum_prefixes_last (a : σ) (g : List σ → Prop) (c : Cnt) (p l : List σ) (hn : l.Nodup) :
    wsum ((prefixes p l).map (fun q => (q, c))) (fun q => q.getLast? = some a ∧ g q.dropLast) =
      if a ∈ l ∧ g (p ++ l.takeWhile (· ≠ a)) then c else 0 := by
  induction l generalizing p with
  | nil => simp [prefixes]
  | cons s l ih =>
    simp only [List.nodup_cons] at hn
    simp only [prefixes, List.map_cons, wsum_cons, ih _ hn.2]
    by_cases hs : s = a
    · subst hs
      have : (List.takeWhile (fun x => decide (x ≠ s)) (s :: l)) = [] := by simp
      rw [this]
      simp [hn.1]
    · have h1 : (List.takeWhile (fun x => decide (x ≠ a)) (s :: l)) = s :: l.takeWhile (· ≠ a) := by
        rw [List.takeWhile_cons_of_pos]; simpa using hs
      have h2 : ¬ a = s := fun hh => hs hh.symm
      rw [h1]
      simp [hs, h2]

theorem wsum_horizontal {t : FPTree σ} {D : DB σ} (h : Holds t D) (hn : ∀ t ∈ D, t.1.Nodup) (a : σ) (g : List σ → Prop) :
    wsum (t.horizontal a) g = wsum D (fun l => a ∈ l ∧ g (l.takeWhile (· ≠ a))) := by
  have h1 : ∀ L : List (List σ × Cnt), wsum (L.filterMap (fun e => if e.1.getLast? = some a then some (e.1.dropLast, e.2) else none)) g =
      wsum L (fun q => q.getLast? = some a ∧ g q.dropLast) := by
    intro L
    induction L with
    | nil => rfl
    | cons e L ih =>
      by_cases he : e.1.getLast? = some a
      · rw [List.filterMap_cons_some (b := (e.1.dropLast, e.2)) (by rw [if_pos he]), wsum_cons, wsum_cons, ih]
        simp [he]
      · rw [List.filterMap_cons_none (by rw [if_neg he]), ih, wsum_cons]
        simp [he]
  rw [horizontal, h1, h.nodes, wsum_accum, nodeItems, wsum_flatMap, wsum_eq_sum]
  congr 1
  apply List.map_congr_left
  intro r hr
  rw [wsum_prefixes_last _ _ _ _ _ (hn r hr)]
  simp

theorem mem_horizontal {t : FPTree σ} {D : DB σ} (h : Holds t D) (a : σ) (q : List σ) :
    (∃ c, (q, c) ∈ t.horizontal a) ↔ ∃ r ∈ D, q ++ [a] <+: r.1 := by
  have : (∃ c, (q, c) ∈ t.horizontal a) ↔ q ++ [a] ∈ t.nodes.map (·.1) := by
    simp only [horizontal, List.mem_filterMap, List.mem_map]
    constructor
    · rintro ⟨c, e, he, hh⟩
      by_cases hl : e.1.getLast? = some a
      · rw [if_pos hl] at hh
        simp only [Option.some.injEq, Prod.mk.injEq] at hh
        refine ⟨e, he, ?_⟩
        rw [← hh.1]
        exact (List.dropLast_append_getLast? a hl).symm
      · rw [if_neg hl] at hh; simp at hh
    · rintro ⟨e, he, hh⟩
      refine ⟨e.2, e, he, ?_⟩
      rw [hh]; simp
  rw [this, mem_nodes h]
  simp

/-! ### dictionaries -/

structure DictOK (key : σ → κ) (S : σ → Prop) (d : FreqDict σ κ) : Prop where
  keys_eq : ∀ e ∈ d, e.1 = key e.2.1 ∧ S e.2.1
  nodup : (d.map (·.2.1)).Nodup
  ord : (d.map (·.2.2.2)).Nodup

def InjOn (key : σ → κ) (S : σ → Prop) : Prop := ∀ a b, S a → S b → key a = key b → a = b

theorem DictOK.keys_nodup {key : σ → κ} {S : σ → Prop} {d : FreqDict σ κ} (hd : DictOK key S d) (hk : InjOn key S) :
    (d.map (·.1)).Nodup := by
  have h1 : d.map (·.1) = (d.map (·.2.1)).map key := by
    rw [List.map_map]
    apply List.map_congr_left
    intro e he
    exact (hd.keys_eq e he).1
  rw [h1]
  apply List.Nodup.map_on _ hd.nodup
  intro x hx y hy hxy
  obtain ⟨e, he, rfl⟩ := List.mem_map.1 hx
  obtain ⟨f, hf, rfl⟩ := List.mem_map.1 hy
  exact hk _ _ (hd.keys_eq e he).2 (hd.keys_eq f hf).2 hxy

theorem DictOK.lookup {key : σ → κ} {S : σ → Prop} {d : FreqDict σ κ} (hd : DictOK key S d) (hk : InjOn key S)
    {e : κ × (σ × Cnt × Int)} (he : e ∈ d) : d.lookup (key e.2.1) = some e.2 := by
  rw [← (hd.keys_eq e he).1]
  exact lookup_of_mem_nodup (hd.keys_nodup hk) he

theorem DictOK.lookup_none {key : σ → κ} {S : σ → Prop} {d : FreqDict σ κ} (hd : DictOK key S d) (hk : InjOn key S)
    {s : σ} (hs : S s) (h : s ∉ d.map (·.2.1)) : d.lookup (key s) = none := by
  rw [Verif.lookup_none]
  intro hm
  obtain ⟨e, he, hh⟩ := List.mem_map.1 hm
  have := (hd.keys_eq e he)
  rw [this.1] at hh
  exact h (hk _ _ this.2 hs hh ▸ List.mem_map_of_mem (f := fun e : κ × (σ × Cnt × Int) => e.2.1) he)

theorem DictOK.filter {key : σ → κ} {S : σ → Prop} {d : FreqDict σ κ} (hd : DictOK key S d)
    (q : κ × (σ × Cnt × Int) → Bool) : DictOK key S (d.filter q) :=
  ⟨fun e he => hd.keys_eq e (List.mem_filter.1 he).1, hd.nodup.sublist (List.filter_sublist.map _),
   hd.ord.sublist (List.filter_sublist.map _)⟩

theorem validSelectors_eq {key : σ → κ} {S : σ → Prop} {d : FreqDict σ κ} (hd : DictOK key S d) (hk : InjOn key S)
    {l : List σ} (hl : ∀ s ∈ l, S s) : validSelectors d (l.map key) = l.filter (fun s => decide (s ∈ d.map (·.2.1))) := by
  induction l with
  | nil => rfl
  | cons s l ih =>
    have ih' := ih (fun s hs => hl s (by simp [hs]))
    simp only [validSelectors, List.map_cons] at ih' ⊢
    by_cases h : s ∈ d.map (·.2.1)
    · obtain ⟨e, he, hh⟩ := List.mem_map.1 h
      have hlk : d.lookup (key s) = some e.2 := by rw [← hh]; exact hd.lookup hk he
      rw [List.filterMap_cons_some (b := s) (by rw [hlk]; simp [hh]), ih', List.filter_cons_of_pos (by simpa using h)]
    · rw [List.filterMap_cons_none (by rw [hd.lookup_none hk (hl s (by simp)) h]; rfl), ih',
        List.filter_cons_of_neg (by simpa using h)]

/-- the order of the rows -/
def rel (key : σ → κ) (d : FreqDict σ κ) (a b : σ) : Prop :=
  dictN key d b < dictN key d a ∨ (dictN key d a = dictN key d b ∧ dictOrd key d a < dictOrd key d b)

theorem rel_asymm (key : σ → κ) (d : FreqDict σ κ) (a b : σ) (h : rel key d a b) : ¬ rel key d b a := by
  unfold rel at *
  omega

theorem sortRow_perm (key : σ → κ) (d : FreqDict σ κ) (l : List σ) : (sortRow key d l).Perm l := by
  unfold sortRow
  exact (stableSort_perm _).trans (stableSort_perm _)

theorem dictOrd_inj {key : σ → κ} {S : σ → Prop} {d : FreqDict σ κ} (hd : DictOK key S d) (hk : InjOn key S)
    {a b : σ} (ha : a ∈ d.map (·.2.1)) (hb : b ∈ d.map (·.2.1)) (h : dictOrd key d a = dictOrd key d b) : a = b := by
  obtain ⟨e, he, rfl⟩ := List.mem_map.1 ha
  obtain ⟨f, hf, rfl⟩ := List.mem_map.1 hb
  unfold dictOrd at h
  rw [hd.lookup hk he, hd.lookup hk hf] at h
  simp only at h
  have := List.inj_on_of_nodup_map hd.ord he hf h
  rw [this]

theorem pairwise_iff_two {α : Type} {R : α → α → Prop} {l : List α} (h : ∀ a b, [a, b].Sublist l → R a b) : l.Pairwise R := by
  rw [List.pairwise_iff_forall_sublist]
  intro a b hab
  exact h a b hab

theorem not_both_sublist {α : Type} {l : List α} (hn : l.Nodup) {a b : α} (h1 : [a, b].Sublist l) (h2 : [b, a].Sublist l) : False := by
  induction l with
  | nil => simp at h1
  | cons x l ih =>
    simp only [List.nodup_cons] at hn
    cases h1 with
    | cons _ h1 =>
      cases h2 with
      | cons _ h2 => exact ih hn.2 h1 h2
      | cons_cons _ h2 => exact hn.1 (h1.subset (by simp))
    | cons_cons _ h1 =>
      cases h2 with
      | cons _ h2 => exact hn.1 (h2.subset (by simp))
      | cons_cons _ h2 => exact hn.1 (h1.subset (by simp))

theorem sublist_or {α : Type} {l : List α} {a b : α} (ha : a ∈ l) (hb : b ∈ l) (hne : a ≠ b) :
    [a, b].Sublist l ∨ [b, a].Sublist l := by
  induction l with
  | nil => simp at ha
  | cons x l ih =>
    rcases List.mem_cons.1 ha with rfl | ha'
    · left
      rcases List.mem_cons.1 hb with rfl | hb'
      · exact absurd rfl hne
      · exact (List.singleton_sublist.2 hb').cons_cons a
    · rcases List.mem_cons.1 hb with rfl | hb'
      · right; exact (List.singleton_sublist.2 ha').cons_cons b
      · rcases ih ha' hb' with h | h
        · left; exact h.cons _
        · right; exact h.cons _

theorem sortRow_pairwise {key : σ → κ} {S : σ → Prop} {d : FreqDict σ κ} (hd : DictOK key S d) (hk : InjOn key S)
    {l : List σ} (hl : ∀ s ∈ l, s ∈ d.map (·.2.1)) (hn : l.Nodup) : (sortRow key d l).Pairwise (rel key d) := by
  have hperm := sortRow_perm key d l
  unfold sortRow at *
  set l1 := stableSort (fun a b => decide (dictOrd key d a ≤ dictOrd key d b)) l with hl1
  have hp1 : l1.Perm l := stableSort_perm _
  have hn1 : l1.Nodup := hp1.nodup_iff.2 hn
  have hs1 : l1.Pairwise (fun a b => decide (dictOrd key d a ≤ dictOrd key d b) = true) := by
    apply pairwise_stableSort
    · intro a b c; simp; omega
    · intro a b; simp; omega
  have hs2 : (stableSort (fun a b => decide (dictN key d b ≤ dictN key d a)) l1).Pairwise
      (fun a b => decide (dictN key d b ≤ dictN key d a) = true) := by
    apply pairwise_stableSort
    · intro a b c; simp; omega
    · intro a b; simp; omega
  have hn2 : (stableSort (fun a b => decide (dictN key d b ≤ dictN key d a)) l1).Nodup :=
    (stableSort_perm _).nodup_iff.2 hn1
  apply pairwise_iff_two
  intro a b hab
  have h1 := List.pairwise_iff_forall_sublist.1 hs2 hab
  simp only [decide_eq_true_eq] at h1
  by_cases heq : dictN key d a = dictN key d b
  · right
    refine ⟨heq, ?_⟩
    have hma : a ∈ l1 := (stableSort_perm _).mem_iff.1 (hab.subset (by simp))
    have hmb : b ∈ l1 := (stableSort_perm _).mem_iff.1 (hab.subset (by simp))
    have hne : a ≠ b := by
      rintro rfl
      have := hn2.sublist hab
      simp at this
    have hord : dictOrd key d a ≠ dictOrd key d b := fun h =>
      hne (dictOrd_inj hd hk (hl a (hp1.mem_iff.1 hma)) (hl b (hp1.mem_iff.1 hmb)) h)
    rcases sublist_or hma hmb hne with h | h
    · have := List.pairwise_iff_forall_sublist.1 hs1 h
      simp only [decide_eq_true_eq] at this
      omega
    · exfalso
      have h2 := pair_sublist_stableSort (le := fun a b => decide (dictN key d b ≤ dictN key d a))
        (by intro a b c; simp; omega) (by intro a b; simp; omega) (a := b) (b := a) (by simp [heq]) h
      exact not_both_sublist hn2 hab h2
  · left; omega

/-! ### the dictionary of the conditional pattern base -/

def proj (d : FreqDict σ κ) : List (σ × Cnt) := d.map (fun e => (e.2.1, e.2.2.1))

structure CondInv (key : σ → κ) (S : σ → Prop) (st : FreqDict σ κ × Int) : Prop where
  ok : DictOK key S st.1
  lt : ∀ e ∈ st.1, st.2 < e.2.2.2

theorem addToDict_spec {key : σ → κ} {S : σ → Prop} (hk : InjOn key S) {st : FreqDict σ κ × Int} (hst : CondInv key S st)
    {s : σ} (hs : S s) (c : Cnt) : CondInv key S (addToDict key st s c) ∧
    proj (addToDict key st s c).1 = upd (proj st.1) s c := by
  have hkeys : (proj st.1).map (·.1) = st.1.map (·.2.1) := by simp [proj, Function.comp_def]
  by_cases hm : s ∈ st.1.map (·.2.1)
  · obtain ⟨e, he, hes⟩ := List.mem_map.1 hm
    have hlk := hst.ok.lookup hk he
    rw [hes] at hlk
    have hdef : addToDict key st s c = (st.1.map (fun e => if e.1 = key s then (e.1, (e.2.1, (e.2.2.1.1 + c.1, e.2.2.1.2 + c.2), e.2.2.2)) else e), st.2) := by
      unfold addToDict
      rw [hlk]
    rw [hdef]
    have hmap : ∀ f : κ × (σ × Cnt × Int), (if f.1 = key s then (f.1, (f.2.1, (f.2.2.1.1 + c.1, f.2.2.1.2 + c.2), f.2.2.2)) else f).1 = f.1 ∧
        (if f.1 = key s then (f.1, (f.2.1, (f.2.2.1.1 + c.1, f.2.2.1.2 + c.2), f.2.2.2)) else f).2.1 = f.2.1 ∧
        (if f.1 = key s then (f.1, (f.2.1, (f.2.2.1.1 + c.1, f.2.2.1.2 + c.2), f.2.2.2)) else f).2.2.2 = f.2.2.2 := by
      intro f; split <;> simp
    refine ⟨⟨⟨?_, ?_, ?_⟩, ?_⟩, ?_⟩
    · intro f hf
      obtain ⟨g, hg, rfl⟩ := List.mem_map.1 hf
      rw [(hmap g).1, (hmap g).2.1]
      exact hst.ok.keys_eq g hg
    · rw [List.map_map]
      have : (fun x : κ × (σ × Cnt × Int) => x.2.1) ∘ (fun e => if e.1 = key s then (e.1, (e.2.1, (e.2.2.1.1 + c.1, e.2.2.1.2 + c.2), e.2.2.2)) else e) = (fun x => x.2.1) := by
        funext f; exact (hmap f).2.1
      rw [this]; exact hst.ok.nodup
    · rw [List.map_map]
      have : (fun x : κ × (σ × Cnt × Int) => x.2.2.2) ∘ (fun e => if e.1 = key s then (e.1, (e.2.1, (e.2.2.1.1 + c.1, e.2.2.1.2 + c.2), e.2.2.2)) else e) = (fun x => x.2.2.2) := by
        funext f; exact (hmap f).2.2
      rw [this]; exact hst.ok.ord
    · intro f hf
      obtain ⟨g, hg, rfl⟩ := List.mem_map.1 hf
      rw [(hmap g).2.2]
      exact hst.lt g hg
    · unfold upd
      rw [if_pos (by rw [hkeys]; exact hm)]
      simp only [proj, bump, List.map_map]
      apply List.map_congr_left
      intro f hf
      simp only [Function.comp_apply]
      have hiff : f.1 = key s ↔ f.2.1 = s := by
        have := hst.ok.keys_eq f hf
        rw [this.1]
        exact ⟨fun h => hk _ _ this.2 hs h, fun h => by rw [h]⟩
      by_cases hf1 : f.2.1 = s
      · rw [if_pos (hiff.2 hf1), if_pos hf1]
      · rw [if_neg (fun h => hf1 (hiff.1 h)), if_neg hf1]
  · have hlk := hst.ok.lookup_none hk hs hm
    have hdef : addToDict key st s c = (st.1 ++ [(key s, (s, c, st.2))], st.2 - 1) := by
      unfold addToDict
      rw [hlk]
    rw [hdef]
    refine ⟨⟨⟨?_, ?_, ?_⟩, ?_⟩, ?_⟩
    · intro f hf
      rcases List.mem_append.1 hf with hf | hf
      · exact hst.ok.keys_eq f hf
      · simp at hf; subst hf; exact ⟨rfl, hs⟩
    · simp only [List.map_append, List.map_cons, List.map_nil]
      rw [List.nodup_append]
      refine ⟨hst.ok.nodup, by simp, ?_⟩
      intro x hx y hy hxy
      simp at hy
      exact hm (by rw [← hy, ← hxy]; exact hx)
    · simp only [List.map_append, List.map_cons, List.map_nil]
      rw [List.nodup_append]
      refine ⟨hst.ok.ord, by simp, ?_⟩
      intro x hx y hy hxy
      simp at hy
      obtain ⟨f, hf, rfl⟩ := List.mem_map.1 hx
      have := hst.lt f hf
      omega
    · intro f hf
      rcases List.mem_append.1 hf with hf | hf
      · have := hst.lt f hf
        simp only; omega
      · simp at hf; subst hf; simp only; omega
    · unfold upd
      rw [if_neg (by rw [hkeys]; exact hm)]
      simp [proj]

theorem condDict_spec {key : σ → κ} {S : σ → Prop} (hk : InjOn key S) (items : List (σ × Cnt)) (hS : ∀ e ∈ items, S e.1)
    (st : FreqDict σ κ × Int) (hst : CondInv key S st) :
    CondInv key S (items.foldl (fun st e => addToDict key st e.1 e.2) st) ∧
    proj (items.foldl (fun st e => addToDict key st e.1 e.2) st).1 = items.foldl (fun l e => upd l e.1 e.2) (proj st.1) := by
  induction items generalizing st with
  | nil => exact ⟨hst, rfl⟩
  | cons e items ih =>
    have h1 := addToDict_spec hk hst (hS e (by simp)) e.2
    have h2 := ih (fun e he => hS e (by simp [he])) _ h1.1
    simp only [List.foldl_cons]
    refine ⟨h2.1, ?_⟩
    rw [h2.2, h1.2]

def baseItems (base : DB σ) : List (σ × Cnt) := base.flatMap (fun b => b.1.reverse.map (fun s => (s, b.2)))

/-- the dictionary of all selectors of the conditional pattern base -/
def allDict (key : σ → κ) (base : DB σ) : FreqDict σ κ :=
  (base.foldl (fun st b => b.1.reverse.foldl (fun st s => addToDict key st s b.2) st) (([], 0) : FreqDict σ κ × Int)).1

theorem allDict_eq (key : σ → κ) (base : DB σ) (st : FreqDict σ κ × Int) :
    base.foldl (fun st b => b.1.reverse.foldl (fun st s => addToDict key st s b.2) st) st =
      (baseItems base).foldl (fun st e => addToDict key st e.1 e.2) st := by
  induction base generalizing st with
  | nil => rfl
  | cons b base ih =>
    have : baseItems (b :: base) = b.1.reverse.map (fun s => (s, b.2)) ++ baseItems base := by simp [baseItems]
    rw [this, List.foldl_append, List.foldl_cons, ih, List.foldl_map]

theorem allDict_spec {key : σ → κ} {S : σ → Prop} (hk : InjOn key S) {base : DB σ} (hS : ∀ b ∈ base, ∀ s ∈ b.1, S s) :
    DictOK key S (allDict key base) ∧ proj (allDict key base) = accum (baseItems base) := by
  have h := condDict_spec hk (baseItems base) (by
    intro e he
    simp only [baseItems, List.mem_flatMap, List.mem_map] at he
    obtain ⟨b, hb, s, hs, rfl⟩ := he
    exact hS b hb s (List.mem_reverse.1 hs)) (([], 0) : FreqDict σ κ × Int)
    ⟨⟨by simp, by simp, by simp⟩, by simp⟩
  unfold allDict
  rw [allDict_eq]
  refine ⟨h.1.ok, ?_⟩
  rw [h.2]
  rfl

/-- the selectors that remain after pruning -/
theorem mem_freqDict {key : σ → κ} {S : σ → Prop} (hk : InjOn key S) (th : Thresholds) {base : DB σ}
    (hS : ∀ b ∈ base, ∀ s ∈ b.1, S s) (hn : ∀ b ∈ base, b.1.Nodup) (s : σ) :
    s ∈ ((allDict key base).filter (fun e => th.ok e.2.2.1)).map (·.2.1) ↔
      (∃ b ∈ base, s ∈ b.1) ∧ th.ok (wsum base (fun l => s ∈ l)) = true := by
  obtain ⟨hok, hproj⟩ := allDict_spec hk hS
  have hw : wsum (baseItems base) (· = s) = wsum base (fun l => s ∈ l) := by
    rw [baseItems, wsum_flatMap, wsum_eq_sum]
    congr 1
    apply List.map_congr_left
    intro t ht
    rw [wsum_const (List.nodup_reverse.2 (hn t ht))]
    simp
  have hlk := lookup_accum (baseItems base) s
  have hmem : s ∈ keys (baseItems base) ↔ ∃ b ∈ base, s ∈ b.1 := by
    simp only [keys, baseItems, List.map_flatMap, List.mem_flatMap, List.map_map, List.mem_map, Function.comp_apply, List.mem_reverse]
    constructor
    · rintro ⟨t, ht, a, ha, rfl⟩; exact ⟨t, ht, ha⟩
    · rintro ⟨t, ht, ha⟩; exact ⟨t, ht, s, ha, rfl⟩
  rw [hw, ← hproj] at hlk
  constructor
  · intro h
    obtain ⟨e, he, rfl⟩ := List.mem_map.1 h
    obtain ⟨he1, he2⟩ := List.mem_filter.1 he
    have h1 : (e.2.1, e.2.2.1) ∈ proj (allDict key base) := List.mem_map_of_mem (f := fun e : κ × (σ × Cnt × Int) => (e.2.1, e.2.2.1)) he1
    have hnd : ((proj (allDict key base)).map (·.1)).Nodup := by rw [hproj]; exact nodup_accum _
    rw [lookup_of_mem_nodup hnd h1] at hlk
    by_cases hm : e.2.1 ∈ keys (baseItems base)
    · rw [if_pos hm] at hlk
      simp only [Option.some.injEq] at hlk
      refine ⟨hmem.1 hm, ?_⟩
      rw [← hlk]; exact he2
    · rw [if_neg hm] at hlk; simp at hlk
  · rintro ⟨h1, h2⟩
    rw [if_pos (hmem.2 h1)] at hlk
    have := mem_of_lookup hlk
    obtain ⟨e, he, hh⟩ := List.mem_map.1 this
    simp only [Prod.mk.injEq] at hh
    apply List.mem_map.2
    refine ⟨e, List.mem_filter.2 ⟨he, ?_⟩, hh.1⟩
    rw [hh.2]; exact h2

end FPTree
end Verif

import Verif.Model.SDMap
import Mathlib.Algebra.Group.Prod
import Mathlib.Algebra.Order.Group.Nat
import Mathlib.Algebra.Order.Monoid.Prod
import Mathlib.Data.List.Nodup
import Mathlib.Data.List.Sublists
import Mathlib.Tactic.Abel
/-! Weighted transaction databases, and what the FP-tree operations compute on them. -/
set_option linter.unusedSectionVars false
set_option linter.unusedSimpArgs false
namespace Verif
open Classical

section accum
variable {α : Type}

/-- sum of the weights of the entries whose key satisfies `P` -/
noncomputable def wsum (L : List (α × Cnt)) (P : α → Prop) : Cnt :=
  match L with
  | [] => 0
  | e :: L => (if P e.1 then e.2 else 0) + wsum L P

@[simp] theorem wsum_nil (P : α → Prop) : wsum [] P = 0 := rfl
@[simp] theorem wsum_cons (e : α × Cnt) (L : List (α × Cnt)) (P : α → Prop) :
    wsum (e :: L) P = (if P e.1 then e.2 else 0) + wsum L P := rfl

theorem wsum_append (L M : List (α × Cnt)) (P : α → Prop) : wsum (L ++ M) P = wsum L P + wsum M P := by
  induction L with
  | nil => simp
  | cons e L ih => simp [ih, add_assoc]

theorem wsum_congr {L : List (α × Cnt)} {P Q : α → Prop} (h : ∀ e ∈ L, P e.1 ↔ Q e.1) : wsum L P = wsum L Q := by
  induction L with
  | nil => rfl
  | cons e L ih =>
    simp only [wsum_cons, h e (by simp)]
    rw [ih (fun e he => h e (by simp [he]))]

theorem wsum_mono {L : List (α × Cnt)} {P Q : α → Prop} (h : ∀ e ∈ L, P e.1 → Q e.1) : wsum L P ≤ wsum L Q := by
  induction L with
  | nil => exact le_refl _
  | cons e L ih =>
    simp only [wsum_cons]
    apply add_le_add _ (ih (fun e he => h e (by simp [he])))
    by_cases hp : P e.1
    · simp [hp, h e (by simp) hp]
    · simp only [hp, if_false]; exact ⟨Nat.zero_le _, Nat.zero_le _⟩

theorem wsum_false {L : List (α × Cnt)} {P : α → Prop} (h : ∀ e ∈ L, ¬ P e.1) : wsum L P = 0 := by
  induction L with
  | nil => rfl
  | cons e L ih => simp [h e (by simp), ih (fun e he => h e (by simp [he]))]

theorem wsum_flatMap {β : Type} (L : List β) (f : β → List (α × Cnt)) (P : α → Prop) :
    wsum (L.flatMap f) P = (L.map (fun b => wsum (f b) P)).sum := by
  induction L with
  | nil => rfl
  | cons e L ih => simp [wsum_append, ih]

theorem wsum_map {β : Type} (L : List (β × Cnt)) (f : β → α) (P : α → Prop) :
    wsum (L.map (fun e => (f e.1, e.2))) P = wsum L (fun b => P (f b)) := by
  induction L with
  | nil => rfl
  | cons e L ih => simp [ih]

theorem wsum_eq_sum (L : List (α × Cnt)) (P : α → Prop) :
    wsum L P = (L.map (fun e => if P e.1 then e.2 else 0)).sum := by
  induction L with
  | nil => rfl
  | cons e L ih => simp [ih]

theorem wsum_filter (L : List (α × Cnt)) (q : α × Cnt → Bool) (P : α → Prop) (h : ∀ e ∈ L, P e.1 → q e = true) :
    wsum (L.filter q) P = wsum L P := by
  induction L with
  | nil => rfl
  | cons e L ih =>
    have ih' := ih (fun e he => h e (by simp [he]))
    by_cases hq : q e = true
    · rw [List.filter_cons_of_pos hq]; simp [ih']
    · rw [List.filter_cons_of_neg hq]
      have : ¬ P e.1 := fun hp => hq (h e (by simp) hp)
      simp [ih', this]

variable [DecidableEq α]

def keys (l : List (α × Cnt)) : List α := l.map (·.1)

/-- add to an entry, creating it if needed -/
def upd (l : List (α × Cnt)) (a : α) (c : Cnt) : List (α × Cnt) :=
  if a ∈ l.map (·.1) then bump l a c.1 c.2 else l ++ [(a, c)]

def accum (L : List (α × Cnt)) : List (α × Cnt) := L.foldl (fun l e => upd l e.1 e.2) []

theorem keys_bump (l : List (α × Cnt)) (a : α) (x y : Nat) : keys (bump l a x y) = keys l := by
  simp only [keys, bump, List.map_map]
  apply List.map_congr_left
  intro e _
  by_cases h : e.1 = a <;> simp [h]

theorem keys_upd (l : List (α × Cnt)) (a : α) (c : Cnt) :
    keys (upd l a c) = if a ∈ keys l then keys l else keys l ++ [a] := by
  by_cases h : a ∈ keys l
  · rw [if_pos h]
    have h' : a ∈ l.map (·.1) := h
    rw [upd, if_pos h', keys_bump]
  · rw [if_neg h]
    have h' : a ∉ l.map (·.1) := h
    rw [upd, if_neg h']; simp [keys]

theorem mem_keys_upd (l : List (α × Cnt)) (a : α) (c : Cnt) (k : α) : k ∈ keys (upd l a c) ↔ k ∈ keys l ∨ k = a := by
  rw [keys_upd]
  by_cases h : a ∈ keys l
  · rw [if_pos h]
    constructor
    · exact Or.inl
    · rintro (h1 | rfl) <;> assumption
  · rw [if_neg h]; simp

theorem nodup_upd {l : List (α × Cnt)} (h : (keys l).Nodup) (a : α) (c : Cnt) : (keys (upd l a c)).Nodup := by
  rw [keys_upd]
  by_cases ha : a ∈ keys l
  · rwa [if_pos ha]
  · rw [if_neg ha]
    rw [List.nodup_append]
    refine ⟨h, by simp, ?_⟩
    intro x hx y hy
    simp at hy
    rintro rfl
    exact ha (hy ▸ hx)

theorem wsum_bump_not_mem {l : List (α × Cnt)} {a : α} (h : a ∉ keys l) (x y : Nat) (P : α → Prop) :
    wsum (bump l a x y) P = wsum l P := by
  induction l with
  | nil => rfl
  | cons e l ih =>
    have h1 : e.1 ≠ a := fun he => h (by simp [keys, he])
    have h2 : a ∉ keys l := fun hm => h (by simp only [keys, List.map_cons, List.mem_cons]; right; exact hm)
    have : bump (e :: l) a x y = e :: bump l a x y := by simp [bump, h1]
    rw [this, wsum_cons, wsum_cons, ih h2]

theorem wsum_bump {l : List (α × Cnt)} (hn : (keys l).Nodup) {a : α} (h : a ∈ keys l) (x y : Nat) (P : α → Prop) :
    wsum (bump l a x y) P = wsum l P + if P a then (x, y) else 0 := by
  induction l with
  | nil => simp [keys] at h
  | cons e l ih =>
    simp only [keys, List.map_cons, List.nodup_cons] at hn
    by_cases he : e.1 = a
    · have : bump (e :: l) a x y = (e.1, (e.2.1 + x, e.2.2 + y)) :: bump l a x y := by simp [bump, he]
      rw [this, wsum_cons, wsum_cons, wsum_bump_not_mem (by rw [← he]; exact hn.1)]
      by_cases hp : P a
      · simp only [he, hp, if_true]
        ext <;> simp <;> omega
      · simp [he, hp]
    · have : bump (e :: l) a x y = e :: bump l a x y := by simp [bump, he]
      have h2 : a ∈ keys l := by
        simp only [keys, List.map_cons, List.mem_cons] at h
        rcases h with h | h
        · exact absurd h.symm he
        · exact h
      rw [this, wsum_cons, wsum_cons, ih hn.2 h2, add_assoc]

theorem wsum_upd {l : List (α × Cnt)} (hn : (keys l).Nodup) (a : α) (c : Cnt) (P : α → Prop) :
    wsum (upd l a c) P = wsum l P + if P a then c else 0 := by
  by_cases h : a ∈ keys l
  · have h' : a ∈ l.map (·.1) := h
    rw [upd, if_pos h', wsum_bump hn h]
  · have h' : a ∉ l.map (·.1) := h
    rw [upd, if_neg h', wsum_append]
    simp

theorem foldl_upd_spec (L l : List (α × Cnt)) (hn : (keys l).Nodup) :
    (keys (L.foldl (fun l e => upd l e.1 e.2) l)).Nodup ∧
    (∀ k, k ∈ keys (L.foldl (fun l e => upd l e.1 e.2) l) ↔ k ∈ keys l ∨ k ∈ keys L) ∧
    (∀ P, wsum (L.foldl (fun l e => upd l e.1 e.2) l) P = wsum l P + wsum L P) := by
  induction L generalizing l with
  | nil => exact ⟨hn, by simp [keys], by simp⟩
  | cons e L ih =>
    obtain ⟨h1, h2, h3⟩ := ih (upd l e.1 e.2) (nodup_upd hn _ _)
    refine ⟨h1, ?_, ?_⟩
    · intro k
      simp only [List.foldl_cons]
      rw [h2, mem_keys_upd]
      simp only [keys, List.map_cons, List.mem_cons]
      tauto
    · intro P
      simp only [List.foldl_cons]
      rw [h3, wsum_upd hn, wsum_cons, add_assoc]

theorem nodup_accum (L : List (α × Cnt)) : (keys (accum L)).Nodup := (foldl_upd_spec L [] (by simp [keys])).1
theorem mem_keys_accum (L : List (α × Cnt)) (k : α) : k ∈ keys (accum L) ↔ k ∈ keys L := by
  have := (foldl_upd_spec L [] (by simp [keys])).2.1 k
  simpa only [accum, keys, List.map_nil, List.not_mem_nil, false_or] using this
theorem wsum_accum (L : List (α × Cnt)) (P : α → Prop) : wsum (accum L) P = wsum L P := by
  have := (foldl_upd_spec L [] (by simp [keys])).2.2 P
  simpa only [accum, wsum_nil, zero_add] using this

theorem lookup_of_nodup [BEq α] [LawfulBEq α] {l : List (α × Cnt)} (hn : (keys l).Nodup) {k : α} (h : k ∈ keys l) :
    l.lookup k = some (wsum l (· = k)) := by
  induction l with
  | nil => simp [keys] at h
  | cons e l ih =>
    simp only [keys, List.map_cons, List.nodup_cons] at hn
    by_cases he : k = e.1
    · have : wsum l (· = k) = 0 := by
        apply wsum_false
        intro x hx hxk
        exact hn.1 (by rw [← he, ← hxk]; exact List.mem_map_of_mem hx)
      rw [wsum_cons, this, if_pos he.symm, List.lookup_cons, he]; simp
    · have h2 : k ∈ keys l := by
        simp only [keys, List.map_cons, List.mem_cons] at h
        rcases h with h | h
        · exact absurd h he
        · exact h
      rw [List.lookup_cons, beq_false_of_ne he, ih hn.2 h2, wsum_cons, if_neg (fun hh => he hh.symm), zero_add]

theorem lookup_none [BEq α] [LawfulBEq α] {β : Type} {l : List (α × β)} {k : α} : l.lookup k = none ↔ k ∉ l.map (·.1) := by
  induction l with
  | nil => simp
  | cons e l ih =>
    by_cases he : k = e.1
    · rw [List.lookup_cons, he]; simp
    · rw [List.lookup_cons, beq_false_of_ne he]; simp only [ih, List.map_cons, List.mem_cons, he, false_or]

theorem lookup_accum [BEq α] [LawfulBEq α] (L : List (α × Cnt)) (k : α) :
    (accum L).lookup k = if k ∈ keys L then some (wsum L (· = k)) else none := by
  by_cases h : k ∈ keys L
  · rw [if_pos h, lookup_of_nodup (nodup_accum L) ((mem_keys_accum L k).2 h), wsum_accum]
  · rw [if_neg h, lookup_none]
    intro hk
    exact h ((mem_keys_accum L k).1 hk)

theorem mem_of_lookup [BEq α] [LawfulBEq α] {β : Type} {l : List (α × β)} {k : α} {c : β} (h : l.lookup k = some c) : (k, c) ∈ l := by
  induction l with
  | nil => simp at h
  | cons e l ih =>
    by_cases he : k = e.1
    · rw [List.lookup_cons, he] at h
      simp only [BEq.rfl, Option.some.injEq] at h
      rw [he, ← h]; simp
    · rw [List.lookup_cons, beq_false_of_ne he] at h
      exact List.mem_cons_of_mem _ (ih h)

theorem lookup_of_mem_nodup [BEq α] [LawfulBEq α] {β : Type} {l : List (α × β)} (hn : (l.map (·.1)).Nodup) {k : α} {c : β} (h : (k, c) ∈ l) :
    l.lookup k = some c := by
  induction l with
  | nil => simp at h
  | cons e l ih =>
    simp only [List.map_cons, List.nodup_cons] at hn
    rcases List.mem_cons.1 h with rfl | h
    · simp
    · have : k ≠ e.1 := fun hk => hn.1 (hk ▸ List.mem_map_of_mem h)
      rw [List.lookup_cons, beq_false_of_ne this]; exact ih hn.2 h

end accum

namespace FPTree
variable {σ κ : Type} [DecidableEq σ] [DecidableEq κ]

/-- weighted transactions -/
abbrev DB (σ : Type) := List (List σ × Cnt)

/-- the non-empty prefixes of `l`, after `p` -/
def prefixes (p : List σ) : List σ → List (List σ)
  | [] => []
  | s :: l => (p ++ [s]) :: prefixes (p ++ [s]) l

theorem mem_prefixes (p l q : List σ) : q ∈ prefixes p l ↔ ∃ r, r ≠ [] ∧ r <+: l ∧ q = p ++ r := by
  induction l generalizing p with
  | nil =>
    simp only [prefixes, List.not_mem_nil, false_iff]
    rintro ⟨r, h1, h2, h3⟩
    exact h1 (List.prefix_nil.1 h2)
  | cons s l ih =>
    simp only [prefixes, List.mem_cons, ih]
    constructor
    · rintro (rfl | ⟨r, h1, h2, rfl⟩)
      · exact ⟨[s], by simp, by simp, rfl⟩
      · exact ⟨s :: r, by simp, by simpa using h2, by simp⟩
    · rintro ⟨r, h1, h2, rfl⟩
      cases r with
      | nil => exact absurd rfl h1
      | cons x r =>
        simp only [List.cons_prefix_cons] at h2
        obtain ⟨rfl, h2⟩ := h2
        by_cases hr : r = []
        · left; simp [hr]
        · right; exact ⟨r, hr, h2, by simp⟩

/-- entries created in the tree / in the header by a database -/
def nodeItems (D : DB σ) : List (List σ × Cnt) := D.flatMap (fun t => (prefixes [] t.1).map (fun q => (q, t.2)))
def headItems (D : DB σ) : List (σ × Cnt) := D.flatMap (fun t => t.1.map (fun q => (q, t.2)))

theorem insertCond_eq (l : List σ) (t : FPTree σ) (p : List σ) (c : Cnt)
    (hinv : ∀ q s, q ++ [s] ∈ keys t.nodes → s ∈ keys t.header) :
    t.insertCond p c.1 c.2 l =
      ⟨((prefixes p l).map (fun q => (q, c))).foldl (fun l e => upd l e.1 e.2) t.nodes,
       (l.map (fun q => (q, c))).foldl (fun l e => upd l e.1 e.2) t.header, t.sorted⟩ := by
  induction l generalizing t p with
  | nil => simp [insertCond, prefixes]
  | cons s l ih =>
    have key : (if t.hasChild p s then { t with nodes := bump t.nodes (p ++ [s]) c.1 c.2, header := bump t.header s c.1 c.2 }
        else { t with
          nodes := t.nodes ++ [(p ++ [s], (c.1, c.2))]
          header := if (t.header.map (·.1)).contains s then bump t.header s c.1 c.2 else t.header ++ [(s, (c.1, c.2))] } : FPTree σ)
        = ⟨upd t.nodes (p ++ [s]) c, upd t.header s c, t.sorted⟩ := by
      by_cases h : t.hasChild p s = true
      · rw [if_pos h]
        have h0 : p ++ [s] ∈ t.nodes.map (·.1) := by simpa only [hasChild, List.contains_iff_mem] using h
        have h1 : s ∈ t.header.map (·.1) := hinv p s h0
        unfold upd
        rw [if_pos h0, if_pos h1]
      · rw [if_neg h]
        have h0 : p ++ [s] ∉ t.nodes.map (·.1) := by simpa only [hasChild, List.contains_iff_mem] using h
        unfold upd
        rw [if_neg h0]
        simp only [List.contains_iff_mem]
    have hstep : t.insertCond p c.1 c.2 (s :: l) =
        (⟨upd t.nodes (p ++ [s]) c, upd t.header s c, t.sorted⟩ : FPTree σ).insertCond (p ++ [s]) c.1 c.2 l := by
      rw [← key, insertCond]
      split <;> rfl
    rw [hstep, ih]
    · simp [prefixes]
    · intro q x hx
      simp only [mem_keys_upd] at hx ⊢
      rcases hx with hx | hx
      · exact Or.inl (hinv q x hx)
      · right
        have := congrArg List.getLast? hx
        simpa using this

theorem insertTree_eq (l : List σ) (t : FPTree σ) (p : List σ) (b : Bool) :
    t.insertTree p b l = t.insertCond p (if b then 1 else 0) (if b then 0 else 1) l := by
  induction l generalizing t p with
  | nil => simp [insertTree, insertCond]
  | cons s l ih =>
    unfold insertTree insertCond
    cases b <;> cases h : t.hasChild p s <;> simp [ih]

theorem foldl_insertCond (D : DB σ) (t : FPTree σ) (hinv : ∀ q s, q ++ [s] ∈ keys t.nodes → s ∈ keys t.header)
    (hn : (keys t.nodes).Nodup) (hh : (keys t.header).Nodup) :
    D.foldl (fun t b => t.insertCond [] b.2.1 b.2.2 b.1) t =
      ⟨(nodeItems D).foldl (fun l e => upd l e.1 e.2) t.nodes, (headItems D).foldl (fun l e => upd l e.1 e.2) t.header, t.sorted⟩ := by
  induction D generalizing t with
  | nil => simp [nodeItems, headItems]
  | cons b D ih =>
    simp only [List.foldl_cons]
    rw [insertCond_eq _ _ _ b.2 hinv]
    rw [ih]
    · simp [nodeItems, headItems]
    · intro q s hq
      rw [(foldl_upd_spec _ _ hn).2.1] at hq
      rw [(foldl_upd_spec _ _ hh).2.1]
      rcases hq with hq | hq
      · exact Or.inl (hinv q s hq)
      · right
        simp only [keys, List.map_map, List.mem_map, mem_prefixes, Function.comp_apply] at hq ⊢
        obtain ⟨a, ⟨r, h1, h2, rfl⟩, h3⟩ := hq
        exact ⟨s, h2.subset (by rw [h3]; simp), rfl⟩
    · exact (foldl_upd_spec _ _ hn).1
    · exact (foldl_upd_spec _ _ hh).1

/-- the tree holds exactly the database -/
structure Holds (t : FPTree σ) (D : DB σ) : Prop where
  nodes : t.nodes = accum (nodeItems D)
  header : t.header = accum (headItems D)

theorem holds_fold (D : DB σ) :
    Holds ((D.foldl (fun t b => t.insertCond [] b.2.1 b.2.2 b.1) empty)) D := by
  rw [foldl_insertCond]
  · exact ⟨rfl, rfl⟩
  · intro q s h; simp [empty, keys] at h
  · simp [empty, keys]
  · simp [empty, keys]

theorem holds_sortHeader {t : FPTree σ} {D : DB σ} (h : Holds t D) : Holds t.sortHeader D := ⟨h.nodes, h.header⟩

end FPTree
end Verif

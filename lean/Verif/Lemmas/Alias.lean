import Verif.Model.Alias
import Mathlib.Data.List.Nodup
/-! Separation of the objects of subgroup lists from those of the clients. -/
namespace Verif
namespace Memory

/-- the default subgroup record of `subgroup` -/
abbrev noSg : Nat × Selector := (0, ⟨[], .equal, .int 0⟩)

/-- the bitarrays that a subgroup list holds -/
def bitRefs (L : ListObj) : List Nat := L.defPos :: L.defNeg :: (L.pos ++ L.neg ++ L.origPos ++ L.origNeg)

/-- the pattern object that is the description of a subgroup object -/
def descr (h : Memory) (g : Nat) : Nat := (h.sgs.getD g noSg).1

/-- what the objects of the lists satisfy -/
structure Sep (h : Memory) : Prop where
  nodup : (h.lists.flatMap bitRefs).Nodup
  inBits : ∀ L ∈ h.lists, ∀ r ∈ bitRefs L, r < h.bits.length
  inSgs : ∀ L ∈ h.lists, ∀ g ∈ L.subs, g < h.sgs.length
  inPats : ∀ L ∈ h.lists, ∀ g ∈ L.subs, h.descr g < h.pats.length
  lenPos : ∀ L ∈ h.lists, L.pos.length = L.subs.length
  lenNeg : ∀ L ∈ h.lists, L.neg.length = L.subs.length

theorem subgroup_eq (h : Memory) (g : Nat) : h.subgroup g = ⟨h.pat (h.descr g), (h.sgs.getD g noSg).2⟩ := rfl

theorem getD_append_left {α : Type} {l l' : List α} {i : Nat} {d : α} (h : i < l.length) : (l ++ l').getD i d = l.getD i d := by
  simp [List.getD, List.getElem?_append_left h]

theorem getD_append_length {α : Type} (l : List α) (a d : α) : (l ++ [a]).getD l.length d = a := by
  simp [List.getD]

theorem getD_modify {α : Type} (l : List α) (i j : Nat) (f : α → α) (d : α) :
    (l.modify i f).getD j d = if i = j ∧ j < l.length then f (l.getD j d) else l.getD j d := by
  simp only [List.getD, List.getElem?_modify]
  by_cases hij : i = j
  · subst hij
    by_cases hl : i < l.length
    · simp [hl]
    · simp [hl]
  · simp [hij]

theorem bit_newBits {h : Memory} {b : Bits} {r : Nat} (hr : r < h.bits.length) : (h.newBits b).bit r = h.bit r := getD_append_left hr
theorem bit_newBits_self (h : Memory) (b : Bits) : (h.newBits b).bit h.bits.length = b := getD_append_length _ _ _
theorem bit_setBits (h : Memory) (r r' : Nat) (f : Bits → Bits) :
    (h.setBits r f).bit r' = if r = r' ∧ r' < h.bits.length then f (h.bit r') else h.bit r' := getD_modify _ _ _ _ _
theorem pat_setPattern (h : Memory) (r r' : Nat) (f : Pattern → Pattern) :
    (h.setPattern r f).pat r' = if r = r' ∧ r' < h.pats.length then f (h.pat r') else h.pat r' := getD_modify _ _ _ _ _

theorem listVal_congr {h h' : Memory} {L : ListObj} (hb : ∀ r ∈ bitRefs L, h'.bit r = h.bit r) (hs : ∀ g ∈ L.subs, h'.subgroup g = h.subgroup g) :
    h'.listVal L = h.listVal L := by
  have m : ∀ l : List Nat, (∀ r ∈ l, r ∈ bitRefs L) → l.map h'.bit = l.map h.bit := fun l hl =>
    List.map_congr_left fun r hr => hb r (hl r hr)
  unfold listVal
  rw [hb L.defPos (by simp [bitRefs]), hb L.defNeg (by simp [bitRefs]), m L.pos (by intro r hr; simp [bitRefs, hr]),
    m L.neg (by intro r hr; simp [bitRefs, hr]), m L.origPos (by intro r hr; simp [bitRefs, hr]), m L.origNeg (by intro r hr; simp [bitRefs, hr]),
    List.map_congr_left hs]

/-- more objects change no value -/
theorem listVal_grow {h h' : Memory} (hsep : Sep h) (hb : ∀ r < h.bits.length, h'.bit r = h.bit r)
    (hs : ∀ g < h.sgs.length, h'.sgs.getD g noSg = h.sgs.getD g noSg) (hp : ∀ r < h.pats.length, h'.pat r = h.pat r) :
    ∀ L ∈ h.lists, h'.listVal L = h.listVal L := by
  intro L hL
  apply listVal_congr
  · intro r hr; exact hb r (hsep.inBits L hL r hr)
  · intro g hg
    have h1 := hs g (hsep.inSgs L hL g hg)
    rw [subgroup_eq, subgroup_eq, h1]
    have : h'.descr g = h.descr g := by unfold descr; rw [h1]
    rw [this, hp _ (hsep.inPats L hL g hg)]

/-- a heap with the same lists and more objects is still separated -/
theorem sep_grow {h h' : Memory} (hsep : Sep h) (hl : h'.lists = h.lists) (hb : h.bits.length ≤ h'.bits.length)
    (hs : ∀ g < h.sgs.length, h'.sgs.getD g noSg = h.sgs.getD g noSg) (hs' : h.sgs.length ≤ h'.sgs.length) (hp : h.pats.length ≤ h'.pats.length) : Sep h' where
  nodup := by rw [hl]; exact hsep.nodup
  inBits := by rw [hl]; exact fun L hL r hr => Nat.lt_of_lt_of_le (hsep.inBits L hL r hr) hb
  inSgs := by rw [hl]; exact fun L hL r hr => Nat.lt_of_lt_of_le (hsep.inSgs L hL r hr) hs'
  inPats := by
    rw [hl]; intro L hL g hg
    have : h'.descr g = h.descr g := by unfold descr; rw [hs g (hsep.inSgs L hL g hg)]
    rw [this]
    exact Nat.lt_of_lt_of_le (hsep.inPats L hL g hg) hp
  lenPos := by rw [hl]; exact hsep.lenPos
  lenNeg := by rw [hl]; exact hsep.lenNeg

/-! ### distinct lists hold distinct bitarrays -/

theorem nodup_one {h : Memory} (hsep : Sep h) {L : ListObj} (hL : L ∈ h.lists) : (bitRefs L).Nodup :=
  (List.nodup_flatMap.1 hsep.nodup).1 L hL

theorem refs_disjoint {h : Memory} (hsep : Sep h) {i j : Nat} {L M : ListObj} (hi : h.lists[i]? = some L) (hj : h.lists[j]? = some M) (hij : i ≠ j) :
    ∀ r ∈ bitRefs L, r ∉ bitRefs M := by
  have hp := (List.nodup_flatMap.1 hsep.nodup).2
  rw [List.pairwise_iff_getElem] at hp
  obtain ⟨hi', rfl⟩ := List.getElem?_eq_some_iff.1 hi
  obtain ⟨hj', rfl⟩ := List.getElem?_eq_some_iff.1 hj
  intro r hr hr'
  rcases Nat.lt_or_gt_of_ne hij with hlt | hgt
  · exact hp i j hi' hj' hlt hr hr'
  · exact hp j i hj' hi' hgt hr' hr

/-- changing the references of one list to ones it already had, in another order or fewer, or to new ones -/
theorem nodup_modify {ls : List ListObj} {l : Nat} {L L' : ListObj} (hnd : (ls.flatMap bitRefs).Nodup) (hl : ls[l]? = some L)
    (h1 : (bitRefs L').Nodup) (h2 : ∀ r ∈ bitRefs L', r ∈ bitRefs L ∨ ∀ M ∈ ls, r ∉ bitRefs M) :
    ((ls.set l L').flatMap bitRefs).Nodup := by
  obtain ⟨hnd1, hnd2⟩ := List.nodup_flatMap.1 hnd
  rw [List.nodup_flatMap]
  constructor
  · intro M hM
    rcases List.mem_or_eq_of_mem_set hM with h | rfl
    · exact hnd1 M h
    · exact h1
  · rw [List.pairwise_iff_getElem] at hnd2 ⊢
    obtain ⟨hl', rfl⟩ := List.getElem?_eq_some_iff.1 hl
    intro i j hi hj hij
    simp only [List.length_set] at hi hj
    have key : ∀ k (hk : k < ls.length), k ≠ l → ∀ r ∈ bitRefs L', r ∉ bitRefs ls[k] := by
      intro k hk hkl r hr hr'
      rcases h2 r hr with h | h
      · rcases Nat.lt_or_gt_of_ne hkl with hlt | hgt
        · exact hnd2 k l hk hl' hlt hr' h
        · exact hnd2 l k hl' hk hgt h hr'
      · exact h _ (List.getElem_mem hk) hr'
    simp only [Function.onFun, List.getElem_set]
    intro r hr hr'
    split at hr
    · rename_i hli
      split at hr'
      · omega
      · exact key j hj (by omega) r hr hr'
    · split at hr'
      · rename_i hlj
        exact key i hi (by omega) r hr' hr
      · exact hnd2 i j hi hj hij hr hr'

theorem modify_eq_set {α : Type} {l : List α} {i : Nat} {a : α} (f : α → α) (h : l[i]? = some a) : l.modify i f = l.set i (f a) := by
  apply List.ext_getElem?
  intro j
  rw [List.getElem?_modify, List.getElem?_set]
  by_cases hij : i = j
  · subst hij
    obtain ⟨hi, rfl⟩ := List.getElem?_eq_some_iff.1 h
    simp [hi]
  · simp [hij]

/-- all values but that of one list are unchanged -/
theorem map_modify {α β : Type} {ls : List α} {l : Nat} {a a' : α} (v v' : α → β) (F : β → β) (hl : ls[l]? = some a)
    (hother : ∀ (j : Nat) (b : α), j ≠ l → ls[j]? = some b → v' b = v b) (hself : v' a' = F (v a)) :
    (ls.set l a').map v' = (ls.map v).modify l F := by
  apply List.ext_getElem?
  intro j
  obtain ⟨hlt, rfl⟩ := List.getElem?_eq_some_iff.1 hl
  rw [List.getElem?_map, List.getElem?_modify, List.getElem?_map, List.getElem?_set]
  by_cases hj : l = j
  · subst hj; simp [hlt, hself]
  · rw [if_neg hj]
    cases hb : ls[j]? with
    | none => simp
    | some b => simp [hj, hother j b (fun h => hj h.symm) hb]


/-! ### the effect of `add_subgroup` and `delete_last_subgroup` on the bitarrays -/

theorem length_setBits (h : Memory) (r : Nat) (f : Bits → Bits) : (h.setBits r f).bits.length = h.bits.length := by
  simp [setBits]

/-- the heap after lines 94-107 -/
def addBits (h : Memory) (L : ListObj) (p n : Nat) : Memory :=
  let b := h.bits.length
  let h1 := (h.newBits (h.bit p)).newBits (h.bit n)
  let h2 := (h1.newBits (h.bit p)).newBits (h.bit n)
  let h3 := h2.setBits (b + 2) (fun x => x.and (h2.bit L.defPos))
  let h4 := h3.setBits (b + 3) (fun x => x.and (h3.bit L.defNeg))
  let h5 := h4.setBits L.defPos (fun x => x.and (h4.bit (b + 2)).not)
  h5.setBits L.defNeg (fun x => x.and (h5.bit (b + 3)).not)

theorem addBits_other (h : Memory) (L : ListObj) (p n : Nat) :
    (h.addBits L p n).pats = h.pats ∧ (h.addBits L p n).sgs = h.sgs ∧ (h.addBits L p n).lists = h.lists ∧ (h.addBits L p n).bits.length = h.bits.length + 4 := by
  simp [addBits, setBits, newBits]

theorem bit_four (h : Memory) (x y z w : Bits) (r : Nat) :
    ((((h.newBits x).newBits y).newBits z).newBits w).bit r =
      if r < h.bits.length then h.bit r else if r = h.bits.length then x else if r = h.bits.length + 1 then y else if r = h.bits.length + 2 then z
      else if r = h.bits.length + 3 then w else [] := by
  have : ((((h.newBits x).newBits y).newBits z).newBits w).bit r = (h.bits ++ [x, y, z, w]).getD r [] := by simp [bit, newBits]
  rw [this]
  by_cases hr : r < h.bits.length
  · rw [if_pos hr, getD_append_left hr]; rfl
  · rw [if_neg hr]
    obtain ⟨k, rfl⟩ := Nat.exists_eq_add_of_le (Nat.le_of_not_lt hr)
    simp only [List.getD, List.getElem?_append_right (Nat.le_add_right _ _), Nat.add_sub_cancel_left]
    match k with
    | 0 => simp
    | 1 => simp
    | 2 => simp
    | 3 => simp
    | k + 4 => simp

set_option linter.unusedSimpArgs false in
theorem bit_addBits (h : Memory) (L : ListObj) (p n r : Nat) (h1 : L.defPos < h.bits.length) (h2 : L.defNeg < h.bits.length) (h12 : L.defPos ≠ L.defNeg) :
    (h.addBits L p n).bit r =
      if r = L.defPos then (h.bit L.defPos).and ((h.bit p).and (h.bit L.defPos)).not
      else if r = L.defNeg then (h.bit L.defNeg).and ((h.bit n).and (h.bit L.defNeg)).not
      else if r < h.bits.length then h.bit r
      else if r = h.bits.length then h.bit p
      else if r = h.bits.length + 1 then h.bit n
      else if r = h.bits.length + 2 then (h.bit p).and (h.bit L.defPos)
      else if r = h.bits.length + 3 then (h.bit n).and (h.bit L.defNeg)
      else [] := by
  unfold addBits
  simp only [bit_setBits, length_setBits, bit_four]
  have hlen : ∀ x y z w : Bits, ((((h.newBits x).newBits y).newBits z).newBits w).bits.length = h.bits.length + 4 := by intros; simp [newBits]
  simp only [hlen]
  have e1 : ¬ (L.defNeg = h.bits.length + 3) := by omega
  have e2 : ¬ (L.defPos = h.bits.length + 3) := by omega
  have e3 : ¬ (L.defPos = h.bits.length + 2) := by omega
  have e4 : ¬ (L.defNeg = h.bits.length + 2) := by omega
  have f2 : ¬ (h.bits.length + 2 < h.bits.length) := by omega
  have f3 : ¬ (h.bits.length + 3 < h.bits.length) := by omega
  by_cases hr1 : r = L.defPos
  · subst hr1
    simp [f2, f3, h1, h2, h12, Ne.symm h12, Ne.symm e1, Ne.symm e2, Ne.symm e3, Ne.symm e4, e1, e2, e3, e4, show L.defPos < h.bits.length + 4 by omega]
  · by_cases hr2 : r = L.defNeg
    · subst hr2
      simp [f2, f3, h1, h2, h12, Ne.symm h12, Ne.symm e1, Ne.symm e2, Ne.symm e3, Ne.symm e4, e1, e2, e3, e4, show L.defNeg < h.bits.length + 4 by omega]
    · by_cases hr3 : r = h.bits.length + 2
      · subst hr3; simp [f2, f3, h1, h2, e3, e4, e1, e2, Ne.symm e1, Ne.symm e2, Ne.symm e3, Ne.symm e4]
      · by_cases hr4 : r = h.bits.length + 3
        · subst hr4; simp [f2, f3, h1, h2, e3, e4, e1, e2, Ne.symm e1, Ne.symm e2, Ne.symm e3, Ne.symm e4]
        · simp [Ne.symm hr1, Ne.symm hr2, Ne.symm hr3, Ne.symm hr4, hr1, hr2, hr3, hr4]

/-- the bitarrays after `delete_last_subgroup` -/
theorem bit_deleteLast (h : Memory) (l : Nat) (L : ListObj) (r : Nat) (hl : h.lists[l]? = some L) (hs : L.subs.length > 0) (h1 : L.defPos < h.bits.length)
    (h2 : L.defNeg < h.bits.length) (h12 : L.defPos ≠ L.defNeg) (h3 : L.neg.getLastD 0 ≠ L.defPos) :
    (h.deleteLast l).bit r = if r = L.defPos then (h.bit L.defPos).or (h.bit (L.pos.getLastD 0))
      else if r = L.defNeg then (h.bit L.defNeg).or (h.bit (L.neg.getLastD 0)) else h.bit r := by
  have e : ∀ f r, (h.setList l f).bit r = h.bit r := fun _ _ => rfl
  have e' : ∀ f, (h.setList l f).bits = h.bits := fun _ => rfl
  unfold deleteLast
  simp only [hl, hs, if_true, bit_setBits, length_setBits, e, e']
  by_cases hr1 : r = L.defPos
  · subst hr1; simp [h1, Ne.symm h12]
  · by_cases hr2 : r = L.defNeg
    · subst hr2
      have h3' : ¬ (L.defPos = L.neg.getLast?.getD 0) := by simpa using Ne.symm h3
      simp [h2, Ne.symm h12, h12, h3']
    · simp [hr1, hr2, Ne.symm hr1, Ne.symm hr2]

/-! ### the steps -/

theorem addSubgroup_eq (h : Memory) (l g p n : Nat) (L : ListObj) (hl : h.lists[l]? = some L) (h1 : L.dist.2 = (h.bit p).length) (h2 : L.dist.2 = (h.bit n).length) :
    h.addSubgroup l g p n = ((h.addBits L p n).copySubgroup g).setList l (fun L => { L with origPos := L.origPos ++ [h.bits.length], origNeg := L.origNeg ++ [h.bits.length + 1], subs := L.subs ++ [h.sgs.length], pos := L.pos ++ [h.bits.length + 2], neg := L.neg ++ [h.bits.length + 3] }) := by
  unfold addSubgroup
  simp only [hl]
  rw [if_neg (by rw [h1]; simp), if_neg (by rw [h2]; simp)]
  rfl

theorem refs_add_perm (L : ListObj) (b g : Nat) :
    (bitRefs { L with origPos := L.origPos ++ [b], origNeg := L.origNeg ++ [b + 1], subs := L.subs ++ [g], pos := L.pos ++ [b + 2], neg := L.neg ++ [b + 3] }).Perm
      (bitRefs L ++ [b, b + 1, b + 2, b + 3]) := by
  rw [List.perm_iff_count]
  intro a
  simp only [bitRefs, List.count_append, List.count_cons, List.count_nil]
  omega

theorem add_step {h : Memory} (hsep : Sep h) (l g p n : Nat) (L : ListObj) (hl : h.lists[l]? = some L) (h1 : L.dist.2 = (h.bit p).length) (h2 : L.dist.2 = (h.bit n).length) :
    Sep (h.addSubgroup l g p n) ∧ (h.addSubgroup l g p n).lists.map (h.addSubgroup l g p n).listVal =
      (h.lists.map h.listVal).modify l (fun x => x.step (.add (h.subgroup g) (h.bit p) (h.bit n))) := by
  obtain ⟨L', hL'⟩ : ∃ L' : ListObj, L' = { L with origPos := L.origPos ++ [h.bits.length], origNeg := L.origNeg ++ [h.bits.length + 1], subs := L.subs ++ [h.sgs.length], pos := L.pos ++ [h.bits.length + 2], neg := L.neg ++ [h.bits.length + 3] } := ⟨_, rfl⟩
  obtain ⟨h', hh'⟩ : ∃ h', h' = h.addSubgroup l g p n := ⟨_, rfl⟩
  have hmem : L ∈ h.lists := List.mem_of_getElem? hl
  obtain ⟨hp, hsg, hls, hbl⟩ := addBits_other h L p n
  have heq := addSubgroup_eq h l g p n L hl h1 h2
  have hlists : h'.lists = h.lists.set l L' := by
    rw [hh', heq, hL']
    show (((h.addBits L p n).copySubgroup g).lists).modify l _ = _
    rw [show ((h.addBits L p n).copySubgroup g).lists = h.lists from hls, modify_eq_set _ hl]
  have hpats : h'.pats = h.pats ++ [(h.subgroup g).description] := by
    rw [hh', heq]
    show (h.addBits L p n).pats ++ [((h.addBits L p n).subgroup g).description.copy] = _
    have : ((h.addBits L p n).subgroup g) = h.subgroup g := by unfold subgroup pat; rw [hp, hsg]
    rw [this, hp]; rfl
  have hsgs : h'.sgs = h.sgs ++ [(h.pats.length, (h.subgroup g).target)] := by
    rw [hh', heq]
    show (h.addBits L p n).sgs ++ [((h.addBits L p n).pats.length, ((h.addBits L p n).subgroup g).target)] = _
    have : ((h.addBits L p n).subgroup g) = h.subgroup g := by unfold subgroup pat; rw [hp, hsg]
    rw [this, hp, hsg]
  have hbits : h'.bits = (h.addBits L p n).bits := by rw [hh', heq]; rfl
  have hlen : h'.bits.length = h.bits.length + 4 := by rw [hbits, hbl]
  have hnd := nodup_one hsep hmem
  have hd1 := hsep.inBits L hmem L.defPos (by simp [bitRefs])
  have hd2 := hsep.inBits L hmem L.defNeg (by simp [bitRefs])
  have h12 : L.defPos ≠ L.defNeg := by
    intro h; simp [bitRefs, h] at hnd
  have hbit : ∀ r, h'.bit r = (h.addBits L p n).bit r := by intro r; unfold bit; rw [hbits]
  -- the bitarrays of the lists other than the default rule of `L`
  have hbold : ∀ r, r < h.bits.length → r ≠ L.defPos → r ≠ L.defNeg → h'.bit r = h.bit r := by
    intro r hr n1 n2
    rw [hbit, bit_addBits h L p n r hd1 hd2 h12, if_neg n1, if_neg n2, if_pos hr]
  have hsold : ∀ M ∈ h.lists, ∀ k ∈ M.subs, h'.subgroup k = h.subgroup k := by
    intro M hM k hk
    have e1 : h'.sgs.getD k noSg = h.sgs.getD k noSg := by rw [hsgs, getD_append_left (hsep.inSgs M hM k hk)]
    have e2 : h'.descr k = h.descr k := by unfold descr; rw [e1]
    rw [subgroup_eq, subgroup_eq, e1, e2]
    have : h'.pat (h.descr k) = h.pat (h.descr k) := by unfold pat; rw [hpats, getD_append_left (hsep.inPats M hM k hk)]
    rw [this]
  have hmem' : ∀ M ∈ h'.lists, M ∈ h.lists ∨ M = L' := by intro M hM; rw [hlists] at hM; exact List.mem_or_eq_of_mem_set hM
  have hrefs : ∀ r ∈ bitRefs L', r ∈ bitRefs L ∨ (h.bits.length ≤ r ∧ r < h.bits.length + 4) := by
    intro r hr
    rw [hL'] at hr
    have := (refs_add_perm L h.bits.length h.sgs.length).mem_iff.1 hr
    simp only [List.mem_append, List.mem_cons, List.not_mem_nil, or_false] at this
    rcases this with h | h | h | h | h
    · exact Or.inl h
    all_goals exact Or.inr (by omega)
  constructor
  · rw [← hh']
    refine ⟨?_, ?_, ?_, ?_, ?_, ?_⟩
    · rw [hlists]
      refine nodup_modify hsep.nodup hl ?_ ?_
      · rw [hL', (refs_add_perm L h.bits.length h.sgs.length).nodup_iff, List.nodup_append]
        refine ⟨hnd, by simp, ?_⟩
        intro a ha c hc hac
        have := hsep.inBits L hmem a ha
        simp only [List.mem_cons, List.not_mem_nil, or_false] at hc
        omega
      · intro r hr
        rcases hrefs r hr with h | h
        · exact Or.inl h
        · exact Or.inr fun M hM hr' => by have := hsep.inBits M hM r hr'; omega
    · intro M hM r hr
      rw [hlen]
      rcases hmem' M hM with h | rfl
      · have := hsep.inBits M h r hr; omega
      · rcases hrefs r hr with h | h
        · have := hsep.inBits L hmem r h; omega
        · omega
    · intro M hM k hk
      rw [hsgs, List.length_append, List.length_singleton]
      rcases hmem' M hM with h | rfl
      · have := hsep.inSgs M h k hk; omega
      · rw [hL'] at hk
        rcases List.mem_append.1 hk with h | h
        · have := hsep.inSgs L hmem k h; omega
        · have := List.mem_singleton.1 h; omega
    · intro M hM k hk
      rw [hpats, List.length_append, List.length_singleton]
      have key : ∀ N ∈ h.lists, k ∈ N.subs → h'.descr k < h.pats.length + 1 := by
        intro N hN hk
        have e1 : h'.sgs.getD k noSg = h.sgs.getD k noSg := by rw [hsgs, getD_append_left (hsep.inSgs N hN k hk)]
        have := hsep.inPats N hN k hk
        unfold descr at this ⊢
        rw [e1]; omega
      rcases hmem' M hM with h | rfl
      · exact key M h hk
      · rw [hL'] at hk
        rcases List.mem_append.1 hk with h | h
        · exact key L hmem h
        · rw [List.mem_singleton.1 h]
          unfold descr
          rw [hsgs, getD_append_length]
          simp
    · intro M hM
      rcases hmem' M hM with h | rfl
      · exact hsep.lenPos M h
      · rw [hL']; simp [hsep.lenPos L hmem]
    · intro M hM
      rcases hmem' M hM with h | rfl
      · exact hsep.lenNeg M h
      · rw [hL']; simp [hsep.lenNeg L hmem]
  · rw [← hh', hlists]
    refine map_modify _ _ _ hl ?_ ?_
    · intro j M hj hM
      have hMm : M ∈ h.lists := List.mem_of_getElem? hM
      have hdis := refs_disjoint hsep hM hl hj
      apply listVal_congr
      · intro r hr
        apply hbold r (hsep.inBits M hMm r hr)
        · intro h; exact hdis r hr (by simp [bitRefs, h])
        · intro h; exact hdis r hr (by simp [bitRefs, h])
      · exact hsold M hMm
    · have hnd' : L.defPos ∉ L.pos ++ L.neg ++ L.origPos ++ L.origNeg ∧ L.defNeg ∉ L.pos ++ L.neg ++ L.origPos ++ L.origNeg := by
        unfold bitRefs at hnd
        rw [List.nodup_cons, List.nodup_cons] at hnd
        exact ⟨fun h => hnd.1 (List.mem_cons_of_mem _ h), hnd.2.1⟩
      have m : ∀ l' : List Nat, (∀ r ∈ l', r ∈ L.pos ++ L.neg ++ L.origPos ++ L.origNeg) → l'.map h'.bit = l'.map h.bit := by
        intro l' hl'
        apply List.map_congr_left
        intro r hr
        have := hl' r hr
        apply hbold r (hsep.inBits L hmem r (by unfold bitRefs; exact List.mem_cons_of_mem _ (List.mem_cons_of_mem _ this)))
        · intro e; rw [e] at this; exact hnd'.1 this
        · intro e; rw [e] at this; exact hnd'.2 this
      have b1 : h'.bit L.defPos = (h.bit L.defPos).and ((h.bit p).and (h.bit L.defPos)).not := by
        rw [hbit, bit_addBits h L p n _ hd1 hd2 h12, if_pos rfl]
      have b2 : h'.bit L.defNeg = (h.bit L.defNeg).and ((h.bit n).and (h.bit L.defNeg)).not := by
        rw [hbit, bit_addBits h L p n _ hd1 hd2 h12, if_neg (Ne.symm h12), if_pos rfl]
      have hnew : ∀ k, h'.bit (h.bits.length + k) = if k = 0 then h.bit p else if k = 1 then h.bit n else if k = 2 then (h.bit p).and (h.bit L.defPos)
          else if k = 3 then (h.bit n).and (h.bit L.defNeg) else [] := by
        intro k
        rw [hbit, bit_addBits h L p n _ hd1 hd2 h12, if_neg (by omega), if_neg (by omega), if_neg (by omega)]
        simp
      have sg : h'.subgroup h.sgs.length = h.subgroup g := by
        have e1 : h'.sgs.getD h.sgs.length noSg = (h.pats.length, (h.subgroup g).target) := by rw [hsgs, getD_append_length]
        rw [subgroup_eq, e1]
        unfold descr
        rw [e1]
        have : h'.pat h.pats.length = (h.subgroup g).description := by unfold pat; rw [hpats, getD_append_length]
        rw [this]
      have hv : (h.listVal L).dist.2 = (h.bit p).length ∧ (h.listVal L).dist.2 = (h.bit n).length := ⟨h1, h2⟩
      simp only [SubgroupList.step, SubgroupList.add]
      rw [if_neg (by rw [hv.1]; simp), if_neg (by rw [hv.2]; simp)]
      simp only [listVal, hL', List.map_append, List.map_cons, List.map_nil]
      rw [b1, b2, m L.pos (by intro r hr; simp [hr]), m L.neg (by intro r hr; simp [hr]), m L.origPos (by intro r hr; simp [hr]),
        m L.origNeg (by intro r hr; simp [hr]), sg, List.map_congr_left (hsold L hmem)]
      have n0 := hnew 0
      rw [Nat.add_zero] at n0
      rw [n0, hnew 1, hnew 2, hnew 3]
      simp


theorem getLastD_mem_of {l : List Nat} (h : l.length > 0) (d : Nat) : l.getLastD d ∈ l := by
  rcases List.eq_nil_or_concat l with rfl | ⟨xs, x, rfl⟩
  · simp at h
  · simp

theorem getLastD_map_of {β : Type} {l : List Nat} (h : l.length > 0) (f : Nat → β) (d : Nat) (e : β) : (l.map f).getLastD e = f (l.getLastD d) := by
  rcases List.eq_nil_or_concat l with rfl | ⟨xs, x, rfl⟩
  · simp at h
  · simp

theorem delete_step {h : Memory} (hsep : Sep h) (l : Nat) (L : ListObj) (hl : h.lists[l]? = some L) (hs : L.subs.length > 0) :
    Sep (h.deleteLast l) ∧ (h.deleteLast l).lists.map (h.deleteLast l).listVal = (h.lists.map h.listVal).modify l (fun x => x.deleteLast) := by
  obtain ⟨L', hL'⟩ : ∃ L' : ListObj, L' = { L with subs := L.subs.dropLast, pos := L.pos.dropLast, neg := L.neg.dropLast, origPos := L.origPos.dropLast, origNeg := L.origNeg.dropLast } := ⟨_, rfl⟩
  obtain ⟨h', hh'⟩ : ∃ h', h' = h.deleteLast l := ⟨_, rfl⟩
  have hmem : L ∈ h.lists := List.mem_of_getElem? hl
  have hnd := nodup_one hsep hmem
  have hd1 := hsep.inBits L hmem L.defPos (by simp [bitRefs])
  have hd2 := hsep.inBits L hmem L.defNeg (by simp [bitRefs])
  have h12 : L.defPos ≠ L.defNeg := by
    intro h; simp [bitRefs, h] at hnd
  have hnd' : L.defPos ∉ L.pos ++ L.neg ++ L.origPos ++ L.origNeg ∧ L.defNeg ∉ L.pos ++ L.neg ++ L.origPos ++ L.origNeg := by
    unfold bitRefs at hnd
    rw [List.nodup_cons, List.nodup_cons] at hnd
    exact ⟨fun h => hnd.1 (List.mem_cons_of_mem _ h), hnd.2.1⟩
  have hp1 : L.pos.length > 0 := by rw [hsep.lenPos L hmem]; exact hs
  have hn1 : L.neg.length > 0 := by rw [hsep.lenNeg L hmem]; exact hs
  have h3 : L.neg.getLastD 0 ≠ L.defPos := by
    intro e; apply hnd'.1
    have := getLastD_mem_of hn1 0
    rw [e] at this; simp only [List.mem_append]; exact Or.inl (Or.inl (Or.inr this))
  have hbit : ∀ r, h'.bit r = if r = L.defPos then (h.bit L.defPos).or (h.bit (L.pos.getLastD 0))
      else if r = L.defNeg then (h.bit L.defNeg).or (h.bit (L.neg.getLastD 0)) else h.bit r := fun r => by rw [hh']; exact bit_deleteLast h l L r hl hs hd1 hd2 h12 h3
  have hlists : h'.lists = h.lists.set l L' := by
    rw [hh', hL']; unfold deleteLast; simp only [hl, hs, if_true]
    show h.lists.modify l _ = _
    rw [modify_eq_set _ hl]
  have hpats : h'.pats = h.pats := by rw [hh']; unfold deleteLast; simp only [hl, hs, if_true]; rfl
  have hsgs : h'.sgs = h.sgs := by rw [hh']; unfold deleteLast; simp only [hl, hs, if_true]; rfl
  have hlen : h'.bits.length = h.bits.length := by rw [hh']; unfold deleteLast; simp only [hl, hs, if_true, length_setBits]; rfl
  have hsub : ∀ k, h'.subgroup k = h.subgroup k := by intro k; unfold subgroup pat; rw [hpats, hsgs]
  have hbold : ∀ r, r ≠ L.defPos → r ≠ L.defNeg → h'.bit r = h.bit r := by
    intro r n1 n2; rw [hbit, if_neg n1, if_neg n2]
  have hsl : (bitRefs L').Sublist (bitRefs L) := by
    rw [hL']
    unfold bitRefs
    refine List.Sublist.cons_cons _ (List.Sublist.cons_cons _ ?_)
    exact (((List.dropLast_sublist _).append (List.dropLast_sublist _)).append (List.dropLast_sublist _)).append (List.dropLast_sublist _)
  have hmem' : ∀ M ∈ h'.lists, M ∈ h.lists ∨ M = L' := by intro M hM; rw [hlists] at hM; exact List.mem_or_eq_of_mem_set hM
  constructor
  · rw [← hh']
    refine ⟨?_, ?_, ?_, ?_, ?_, ?_⟩
    · rw [hlists]
      exact nodup_modify hsep.nodup hl (hsl.nodup hnd) fun r hr => Or.inl (hsl.subset hr)
    · intro M hM r hr
      rw [hlen]
      rcases hmem' M hM with h | rfl
      · exact hsep.inBits M h r hr
      · exact hsep.inBits L hmem r (hsl.subset hr)
    · intro M hM k hk
      rw [hsgs]
      rcases hmem' M hM with h | rfl
      · exact hsep.inSgs M h k hk
      · exact hsep.inSgs L hmem k (by rw [hL'] at hk; exact List.dropLast_subset _ hk)
    · intro M hM k hk
      have e : h'.descr k = h.descr k := by unfold descr; rw [hsgs]
      rw [hpats, e]
      rcases hmem' M hM with h | rfl
      · exact hsep.inPats M h k hk
      · exact hsep.inPats L hmem k (by rw [hL'] at hk; exact List.dropLast_subset _ hk)
    · intro M hM
      rcases hmem' M hM with h | rfl
      · exact hsep.lenPos M h
      · rw [hL']; simp [hsep.lenPos L hmem]
    · intro M hM
      rcases hmem' M hM with h | rfl
      · exact hsep.lenNeg M h
      · rw [hL']; simp [hsep.lenNeg L hmem]
  · rw [← hh', hlists]
    refine map_modify _ _ _ hl ?_ ?_
    · intro j M hj hM
      have hdis := refs_disjoint hsep hM hl hj
      apply listVal_congr
      · intro r hr
        apply hbold r
        · intro h; exact hdis r hr (by simp [bitRefs, h])
        · intro h; exact hdis r hr (by simp [bitRefs, h])
      · intro k _; exact hsub k
    · have m : ∀ l' : List Nat, (∀ r ∈ l', r ∈ L.pos ++ L.neg ++ L.origPos ++ L.origNeg) → l'.map h'.bit = l'.map h.bit := by
        intro l' hl'
        apply List.map_congr_left
        intro r hr
        have := hl' r hr
        apply hbold r
        · intro e; rw [e] at this; exact hnd'.1 this
        · intro e; rw [e] at this; exact hnd'.2 this
      have b1 := hbit L.defPos
      have b2 := hbit L.defNeg
      rw [if_pos rfl] at b1
      rw [if_neg (Ne.symm h12), if_pos rfl] at b2
      have hsl : (h.listVal L).subs.length > 0 := by simpa [listVal] using hs
      unfold SubgroupList.deleteLast
      rw [if_pos hsl]
      simp only [listVal, hL']
      rw [b1, b2, getLastD_map_of hp1 h.bit 0, getLastD_map_of hn1 h.bit 0, m L.pos.dropLast (by intro r hr; simp [List.dropLast_subset _ hr]),
        m L.neg.dropLast (by intro r hr; simp [List.dropLast_subset _ hr]), m L.origPos.dropLast (by intro r hr; simp [List.dropLast_subset _ hr]),
        m L.origNeg.dropLast (by intro r hr; simp [List.dropLast_subset _ hr]), List.map_congr_left (fun k _ => hsub k)]
      simp [List.map_dropLast]


theorem sep_same {h h' : Memory} (hsep : Sep h) (hl : h'.lists = h.lists) (hb : h'.bits.length = h.bits.length) (hs : h'.sgs = h.sgs) (hp : h'.pats.length = h.pats.length) : Sep h' :=
  sep_grow hsep hl (by omega) (by rw [hs]; intros; rfl) (Nat.le_of_eq (congrArg List.length hs.symm)) (by omega)

theorem sep_step {h : Memory} (hsep : Sep h) (c : Call) : Sep (h.step c) := by
  cases c with
  | newPattern l => exact sep_grow hsep rfl (Nat.le_refl _) (fun _ _ => rfl) (Nat.le_refl _) (by simp [step, newPattern])
  | copyPattern r => exact sep_grow hsep rfl (Nat.le_refl _) (fun _ _ => rfl) (Nat.le_refl _) (by simp [step, copyPattern])
  | addSelector r s => exact sep_same hsep rfl rfl rfl (by simp [step, setPattern])
  | removeSelector r s => exact sep_same hsep rfl rfl rfl (by simp [step, setPattern])
  | removeByIndex r i => exact sep_same hsep rfl rfl rfl (by simp [step, setPattern])
  | newSubgroup r t => exact sep_grow hsep rfl (Nat.le_refl _) (fun g hg => getD_append_left hg) (by simp [step, newSubgroup]) (Nat.le_refl _)
  | copySubgroup g => exact sep_grow hsep rfl (Nat.le_refl _) (fun g hg => getD_append_left hg) (by simp [step, copySubgroup]) (by simp [step, copySubgroup])
  | newBits b => exact sep_grow hsep rfl (by simp [step, newBits]) (fun _ _ => rfl) (Nat.le_refl _) (Nat.le_refl _)
  | setBit r i v => exact sep_same hsep rfl (by simp [step, setBits]) rfl rfl
  | newList p n rows =>
    simp only [step, newList]
    split
    · exact hsep
    · split
      · exact hsep
      · refine ⟨?_, ?_, ?_, ?_, ?_, ?_⟩
        · simp only [newBits, List.flatMap_append, List.flatMap_cons, List.flatMap_nil, List.append_nil]
          rw [List.nodup_append]
          refine ⟨hsep.nodup, by simp [bitRefs], ?_⟩
          intro a ha b hb hab
          obtain ⟨M, hM, ha⟩ := List.mem_flatMap.1 ha
          have := hsep.inBits M hM a ha
          simp [bitRefs] at hb
          omega
        · intro M hM r hr
          simp only [newBits, List.mem_append, List.mem_singleton, List.length_append, List.length_singleton] at hM ⊢
          rcases hM with h | rfl
          · have := hsep.inBits M h r hr; omega
          · simp [bitRefs] at hr; omega
        · intro M hM k hk
          rcases List.mem_append.1 hM with h | h
          · exact hsep.inSgs M h k hk
          · rw [List.mem_singleton.1 h] at hk; simp at hk
        · intro M hM k hk
          rcases List.mem_append.1 hM with h | h
          · exact hsep.inPats M h k hk
          · rw [List.mem_singleton.1 h] at hk; simp at hk
        · intro M hM
          rcases List.mem_append.1 hM with h | h
          · exact hsep.lenPos M h
          · rw [List.mem_singleton.1 h]
        · intro M hM
          rcases List.mem_append.1 hM with h | h
          · exact hsep.lenNeg M h
          · rw [List.mem_singleton.1 h]
  | addSubgroup l g p n =>
    cases hl : h.lists[l]? with
    | none => simp only [step, addSubgroup, hl]; exact hsep
    | some L =>
      by_cases h1 : L.dist.2 = (h.bit p).length
      · by_cases h2 : L.dist.2 = (h.bit n).length
        · exact (add_step hsep l g p n L hl h1 h2).1
        · simp only [step, addSubgroup, hl]; rw [if_neg (by rw [← h1]; simp), if_pos h2]; exact hsep
      · simp only [step, addSubgroup, hl]; rw [if_pos h1]; exact hsep
  | deleteLast l =>
    cases hl : h.lists[l]? with
    | none => simp only [step, deleteLast, hl]; exact hsep
    | some L =>
      by_cases h1 : L.subs.length > 0
      · exact (delete_step hsep l L hl h1).1
      · simp only [step, deleteLast, hl]; rw [if_neg h1]; exact hsep

theorem sep_empty : Sep empty := by
  refine ⟨by simp [empty], ?_, ?_, ?_, ?_, ?_⟩ <;> intro L hL <;> simp [empty] at hL

theorem sep_run (h : Memory) (hsep : Sep h) (ops : List Call) : Sep (h.run ops) := by
  unfold run
  induction ops generalizing h with
  | nil => exact hsep
  | cons c ops ih => exact ih (h.step c) (sep_step hsep c)

/-! ### growth -/

theorem modify_of_none {α : Type} {l : List α} {i : Nat} (f : α → α) (h : l[i]? = none) : l.modify i f = l := by
  apply List.ext_getElem?
  intro j
  rw [List.getElem?_modify]
  by_cases hij : i = j
  · subst hij; simp [h]
  · simp [hij]

theorem modify_of_fixed {α : Type} {l : List α} {i : Nat} {a : α} (f : α → α) (h : l[i]? = some a) (hf : f a = a) : l.modify i f = l := by
  apply List.ext_getElem?
  intro j
  rw [List.getElem?_modify]
  by_cases hij : i = j
  · subst hij; simp [h, hf]
  · simp [hij]

end Memory
end Verif

import Verif.Lemmas.Alias
/-! C72: which objects share state. Patterns, bitarrays and subgroup lists are mutable objects; a copy must not change with its original, and what a `SubgroupList`
holds must not change with the objects it was built from. -/
namespace Verif
namespace Memory

/-! ### specification -/

/-- the bitarray object `r` belongs to a subgroup list: its getters can return it -/
def Held (h : Memory) (r : Nat) : Prop := ∃ L ∈ h.lists, r ∈ bitRefs L

/-- the pattern object `r` is the description of a subgroup that belongs to a subgroup list: `get_subgroup(i).description` can return it -/
def HeldPattern (h : Memory) (r : Nat) : Prop := ∃ L ∈ h.lists, ∃ g ∈ L.subs, h.descr g = r

/-- the statement does not change in place an object that a subgroup list handed out -/
def Allowed (h : Memory) : Call → Prop
  | .addSelector r _ => ¬ h.HeldPattern r
  | .removeSelector r _ => ¬ h.HeldPattern r
  | .removeByIndex r _ => ¬ h.HeldPattern r
  | .setBit r _ _ => ¬ h.Held r
  | _ => True

/-- a program that never does that -/
def Respectful (h : Memory) : List Call → Prop
  | [] => True
  | c :: ops => h.Allowed c ∧ Respectful (h.step c) ops

/-- the effect of a statement on subgroup lists that hold values, not references: only the calls of the methods of a list change it, by the values that the arguments have at the call -/
def valueStep (h : Memory) (w : List SubgroupList) : Call → List SubgroupList
  | .newList p n rows => match SubgroupList.new (h.bit p) (h.bit n) rows with | .ok l => w ++ [l] | .error _ => w
  | .addSubgroup l g p n => w.modify l (fun x => x.step (.add (h.subgroup g) (h.bit p) (h.bit n)))
  | .deleteLast l => w.modify l (fun x => x.step .deleteLast)
  | _ => w

/-- the subgroup lists of a program, if they held values -/
def values (h : Memory) (w : List SubgroupList) : List Call → List SubgroupList
  | [] => w
  | c :: ops => values (h.step c) (h.valueStep w c) ops

/-- the effect of a statement on the value of the pattern object `r`: only the calls of the methods of that very object change it -/
def patternStep (r : Nat) (p : Pattern) : Call → Pattern
  | .addSelector r' s => if r' = r then p.add s else p
  | .removeSelector r' s => if r' = r then p.remove s else p
  | .removeByIndex r' i => if r' = r then (match p.removeByIndex i with | .ok q => q | .error _ => p) else p
  | _ => p

/-- the effect of a statement on the value of the bitarray object `r` of a client -/
def bitStep (r : Nat) (b : Bits) : Call → Bits
  | .setBit r' i v => if r' = r then b.set i v else b
  | _ => b

/-! ### subgroup lists -/

theorem newList_ok (h : Memory) (p n rows : Nat) (h1 : rows = (h.bit p).length) (h2 : rows = (h.bit n).length) :
    (h.newList p n rows).pats = h.pats ∧ (h.newList p n rows).sgs = h.sgs ∧ (h.newList p n rows).bits = h.bits ++ [h.bit p, h.bit n] ∧
    (h.newList p n rows).lists = h.lists ++ [⟨h.bits.length, h.bits.length + 1, ((h.bit p).ones, rows), [], [], [], [], []⟩] := by
  unfold newList
  rw [if_neg (by rw [← h1]; simp), if_neg (by rw [← h2]; simp)]
  simp [newBits]

theorem step_values {h : Memory} (hsep : Sep h) (c : Call) (hc : h.Allowed c) :
    (h.step c).lists.map (h.step c).listVal = h.valueStep (h.lists.map h.listVal) c := by
  have grow : ∀ h' : Memory, h'.lists = h.lists → (∀ r < h.bits.length, h'.bit r = h.bit r) → (∀ g < h.sgs.length, h'.sgs.getD g noSg = h.sgs.getD g noSg) →
      (∀ r < h.pats.length, h'.pat r = h.pat r) → h'.lists.map h'.listVal = h.lists.map h.listVal := by
    intro h' hl hb hs hp
    rw [hl]
    exact List.map_congr_left (listVal_grow hsep hb hs hp)
  have setP : ∀ (r : Nat) (f : Pattern → Pattern), ¬ h.HeldPattern r → (h.setPattern r f).lists.map (h.setPattern r f).listVal = h.lists.map h.listVal := by
    intro r f hr
    refine List.map_congr_left fun L hL => listVal_congr (fun _ _ => rfl) fun g hg => ?_
    rw [subgroup_eq, subgroup_eq, pat_setPattern, if_neg]
    · rfl
    · rintro ⟨e, _⟩; exact hr ⟨L, hL, g, hg, e.symm⟩
  cases c with
  | newPattern l => exact grow _ rfl (fun _ _ => rfl) (fun _ _ => rfl) (fun r hr => getD_append_left hr)
  | copyPattern r => exact grow _ rfl (fun _ _ => rfl) (fun _ _ => rfl) (fun r hr => getD_append_left hr)
  | addSelector r s => exact setP r _ hc
  | removeSelector r s => exact setP r _ hc
  | removeByIndex r i => exact setP r _ hc
  | newSubgroup r t => exact grow _ rfl (fun _ _ => rfl) (fun g hg => getD_append_left hg) (fun _ _ => rfl)
  | copySubgroup g => exact grow _ rfl (fun _ _ => rfl) (fun g hg => getD_append_left hg) (fun r hr => getD_append_left hr)
  | newBits b => exact grow _ rfl (fun r hr => getD_append_left hr) (fun _ _ => rfl) (fun _ _ => rfl)
  | setBit r i v =>
    refine List.map_congr_left fun L hL => listVal_congr (fun r' hr' => ?_) fun g hg => rfl
    show (h.setBits r _).bit r' = _
    rw [bit_setBits, if_neg]
    rintro ⟨e, _⟩; exact hc ⟨L, hL, e ▸ hr'⟩
  | newList p n rows =>
    show (h.newList p n rows).lists.map (h.newList p n rows).listVal = _
    by_cases h1 : rows = (h.bit p).length
    · by_cases h2 : rows = (h.bit n).length
      · have hnew : SubgroupList.new (h.bit p) (h.bit n) rows = .ok ⟨h.bit p, h.bit n, ((h.bit p).ones, rows), [], [], [], [], []⟩ := by
          unfold SubgroupList.new; rw [if_neg (by rw [← h1]; simp), if_neg (by rw [← h2]; simp)]
        obtain ⟨e1, e2, e3, e4⟩ := newList_ok h p n rows h1 h2
        simp only [valueStep, hnew]
        rw [e4, List.map_append]
        congr 1
        · refine List.map_congr_left (listVal_grow hsep ?_ (fun _ _ => by rw [e2]) (fun _ _ => by unfold pat; rw [e1]))
          intro r hr
          unfold bit
          rw [e3, getD_append_left hr]
        · have b1 : (h.newList p n rows).bit h.bits.length = h.bit p := by
            show (h.newList p n rows).bits.getD _ [] = _; rw [e3]; simp [List.getD]
          have b2 : (h.newList p n rows).bit (h.bits.length + 1) = h.bit n := by
            show (h.newList p n rows).bits.getD _ [] = _; rw [e3]; simp [List.getD]
          simp [listVal, b1, b2]
      · have hnew : SubgroupList.new (h.bit p) (h.bit n) rows = .error .valueError := by
          unfold SubgroupList.new; rw [if_neg (by rw [← h1]; simp), if_pos h2]
        have hbad : h.newList p n rows = h := by unfold newList; rw [if_neg (by rw [← h1]; simp), if_pos h2]
        simp only [valueStep, hnew, hbad]
    · have hnew : SubgroupList.new (h.bit p) (h.bit n) rows = .error .valueError := by
        unfold SubgroupList.new; rw [if_pos h1]
      have hbad : h.newList p n rows = h := by unfold newList; rw [if_pos h1]
      simp only [valueStep, hnew, hbad]
  | addSubgroup l g p n =>
    cases hl : h.lists[l]? with
    | none =>
      simp only [step, addSubgroup, hl, valueStep]
      rw [modify_of_none _ (by simp [hl])]
    | some L =>
      have hfix : ∀ f : SubgroupList → SubgroupList, f (h.listVal L) = h.listVal L → (h.lists.map h.listVal).modify l f = h.lists.map h.listVal := fun f hf =>
        modify_of_fixed f (a := h.listVal L) (by simp [hl]) hf
      by_cases h1 : L.dist.2 = (h.bit p).length
      · by_cases h2 : L.dist.2 = (h.bit n).length
        · exact (add_step hsep l g p n L hl h1 h2).2
        · simp only [step, addSubgroup, hl, valueStep]; rw [if_neg (by rw [← h1]; simp), if_pos h2]
          refine (hfix _ ?_).symm
          simp only [SubgroupList.step, SubgroupList.add]
          rw [if_neg (by rw [← h1]; simp [listVal]), if_pos (by simpa [listVal] using h2)]
      · simp only [step, addSubgroup, hl, valueStep]; rw [if_pos h1]
        refine (hfix _ ?_).symm
        simp only [SubgroupList.step, SubgroupList.add]
        rw [if_pos (by simpa [listVal] using h1)]
  | deleteLast l =>
    cases hl : h.lists[l]? with
    | none =>
      simp only [step, deleteLast, hl, valueStep]
      rw [modify_of_none _ (by simp [hl])]
    | some L =>
      by_cases h1 : L.subs.length > 0
      · exact (delete_step hsep l L hl h1).2
      · simp only [step, deleteLast, hl, valueStep]; rw [if_neg h1]
        refine (modify_of_fixed _ (a := h.listVal L) (by simp [hl]) ?_).symm
        simp only [SubgroupList.step, SubgroupList.deleteLast]
        rw [if_neg (by simpa [listVal] using h1)]

theorem lists_from {h : Memory} (hsep : Sep h) (ops : List Call) (hr : Respectful h ops) :
    (h.run ops).lists.map (h.run ops).listVal = values h (h.lists.map h.listVal) ops := by
  induction ops generalizing h with
  | nil => rfl
  | cons c ops ih =>
    show ((h.step c).run ops).lists.map ((h.step c).run ops).listVal = values (h.step c) (h.valueStep (h.lists.map h.listVal) c) ops
    rw [ih (sep_step hsep c) hr.2, step_values hsep c hr.1]

/-- C72: the subgroup lists of a program that does not change in place what they hand out contain exactly the values passed to their methods: later changes of the
patterns, subgroups and bitarrays passed, and calls on other lists, change nothing. -/
theorem C72_lists (ops : List Call) (hr : Respectful empty ops) : (run empty ops).lists.map (run empty ops).listVal = values empty [] ops :=
  lists_from sep_empty ops hr

/-! ### patterns -/

theorem pats_addBits (h : Memory) (l g p n : Nat) : ∃ t, (h.addSubgroup l g p n).pats = h.pats ++ t := by
  cases hl : h.lists[l]? with
  | none => exact ⟨[], by simp [addSubgroup, hl]⟩
  | some L =>
    by_cases h1 : L.dist.2 = (h.bit p).length
    · by_cases h2 : L.dist.2 = (h.bit n).length
      · rw [addSubgroup_eq h l g p n L hl h1 h2]
        exact ⟨_, congrArg (· ++ _) (addBits_other h L p n).1⟩
      · refine ⟨[], ?_⟩; simp only [addSubgroup, hl]; rw [if_neg (by rw [← h1]; simp), if_pos h2]; simp
    · refine ⟨[], ?_⟩; simp only [addSubgroup, hl]; rw [if_pos h1]; simp

theorem pat_step (h : Memory) (c : Call) (r : Nat) (hr : r < h.pats.length) : (h.step c).pat r = patternStep r (h.pat r) c ∧ r < (h.step c).pats.length := by
  cases c with
  | newPattern l => exact ⟨getD_append_left hr, by simp [step, newPattern]; omega⟩
  | copyPattern r' => exact ⟨getD_append_left hr, by simp [step, copyPattern]; omega⟩
  | addSelector r' s => simp only [step, pat_setPattern, patternStep, hr, and_true]; exact ⟨trivial, by simpa [setPattern] using hr⟩
  | removeSelector r' s => simp only [step, pat_setPattern, patternStep, hr, and_true]; exact ⟨trivial, by simpa [setPattern] using hr⟩
  | removeByIndex r' i => simp only [step, pat_setPattern, patternStep, hr, and_true]; exact ⟨rfl, by simpa [setPattern] using hr⟩
  | newSubgroup r' t => exact ⟨rfl, hr⟩
  | copySubgroup g => exact ⟨getD_append_left hr, by simp [step, copySubgroup]; omega⟩
  | newBits b => exact ⟨rfl, hr⟩
  | setBit r' i v => exact ⟨rfl, hr⟩
  | newList p n rows =>
    simp only [step, newList]
    split
    · exact ⟨rfl, hr⟩
    · split
      · exact ⟨rfl, hr⟩
      · exact ⟨rfl, hr⟩
  | addSubgroup l g p n =>
    obtain ⟨t, ht⟩ := pats_addBits h l g p n
    refine ⟨?_, ?_⟩
    · show (h.addSubgroup l g p n).pats.getD r _ = _
      rw [ht, getD_append_left hr]; rfl
    · show r < (h.addSubgroup l g p n).pats.length
      rw [ht, List.length_append]; omega
  | deleteLast l =>
    have : (h.deleteLast l).pats = h.pats := by
      cases hl : h.lists[l]? with
      | none => simp [deleteLast, hl]
      | some L =>
        by_cases h1 : L.subs.length > 0
        · simp only [deleteLast, hl, h1, if_true]; rfl
        · simp only [deleteLast, hl]; rw [if_neg h1]
    refine ⟨?_, ?_⟩
    · show (h.deleteLast l).pats.getD r _ = _
      rw [this]; rfl
    · show r < (h.deleteLast l).pats.length
      rw [this]; exact hr

/-- C72: a pattern object changes only by calls of its own methods — in any program, whatever copies, subgroups and lists were made from it. -/
theorem C72_patterns (h : Memory) (ops : List Call) (r : Nat) (hr : r < h.pats.length) : (h.run ops).pat r = ops.foldl (patternStep r) (h.pat r) := by
  induction ops generalizing h with
  | nil => rfl
  | cons c ops ih =>
    obtain ⟨e, hr'⟩ := pat_step h c r hr
    show ((h.step c).run ops).pat r = _
    rw [ih (h.step c) hr', e]; rfl

theorem sgs_step (h : Memory) (c : Call) : ∃ t, (h.step c).sgs = h.sgs ++ t := by
  cases c with
  | newSubgroup r' t => exact ⟨_, rfl⟩
  | copySubgroup g => exact ⟨_, rfl⟩
  | newList p n rows =>
    refine ⟨[], ?_⟩
    simp only [step, newList]
    split
    · simp
    · split <;> simp [newBits]
  | addSubgroup l g p n =>
    show ∃ t, (h.addSubgroup l g p n).sgs = _
    cases hl : h.lists[l]? with
    | none => exact ⟨[], by simp [addSubgroup, hl]⟩
    | some L =>
      by_cases h1 : L.dist.2 = (h.bit p).length
      · by_cases h2 : L.dist.2 = (h.bit n).length
        · rw [addSubgroup_eq h l g p n L hl h1 h2]
          exact ⟨_, congrArg (· ++ _) (addBits_other h L p n).2.1⟩
        · refine ⟨[], ?_⟩; simp only [addSubgroup, hl]; rw [if_neg (by rw [← h1]; simp), if_pos h2]; simp
      · refine ⟨[], ?_⟩; simp only [addSubgroup, hl]; rw [if_pos h1]; simp
  | deleteLast l =>
    refine ⟨[], ?_⟩
    show (h.deleteLast l).sgs = _
    cases hl : h.lists[l]? with
    | none => simp [deleteLast, hl]
    | some L =>
      by_cases h1 : L.subs.length > 0
      · simp only [deleteLast, hl, h1, if_true]; simp [setBits, setList]
      · simp only [deleteLast, hl]; rw [if_neg h1]; simp
  | _ => exact ⟨[], by simp [step, newPattern, copyPattern, setPattern, newBits, setBits]⟩

theorem sgs_run (h : Memory) (ops : List Call) (g : Nat) (hg : g < h.sgs.length) : (h.run ops).sgs.getD g noSg = h.sgs.getD g noSg := by
  induction ops generalizing h with
  | nil => rfl
  | cons c ops ih =>
    obtain ⟨t, ht⟩ := sgs_step h c
    show ((h.step c).run ops).sgs.getD g noSg = _
    rw [ih (h.step c) (by rw [ht, List.length_append]; omega), ht, getD_append_left hg]

/-- C72: `copy` returns a new object with the value the original had; from then on each changes only by calls of its own methods. -/
theorem C72_copy (h : Memory) (r : Nat) (hr : r < h.pats.length) (ops : List Call) :
    ((h.step (.copyPattern r)).run ops).pat h.pats.length = ops.foldl (patternStep h.pats.length) (h.pat r) ∧
    ((h.step (.copyPattern r)).run ops).pat r = ops.foldl (patternStep r) (h.pat r) := by
  have hlen : (h.step (.copyPattern r)).pats.length = h.pats.length + 1 := by simp [step, copyPattern]
  rw [C72_patterns _ ops _ (by rw [hlen]; omega), C72_patterns _ ops _ (by rw [hlen]; omega)]
  have e1 : (h.step (.copyPattern r)).pat h.pats.length = h.pat r := getD_append_length _ _ _
  have e2 : (h.step (.copyPattern r)).pat r = h.pat r := getD_append_left hr
  rw [e1, e2]
  exact ⟨rfl, rfl⟩

/-- C72: `Subgroup(description, target)` shares the pattern: the subgroup's description is the pattern as it is now. -/
theorem C72_subgroup_shares (h : Memory) (r : Nat) (hr : r < h.pats.length) (t : Selector) (ops : List Call) :
    ((h.step (.newSubgroup r t)).run ops).subgroup h.sgs.length = ⟨ops.foldl (patternStep r) (h.pat r), t⟩ := by
  have hg : h.sgs.length < (h.step (.newSubgroup r t)).sgs.length := by simp [step, newSubgroup]
  have e : ((h.step (.newSubgroup r t)).run ops).sgs.getD h.sgs.length noSg = (r, t) := by
    rw [sgs_run _ ops _ hg]; exact getD_append_length _ _ _
  rw [subgroup_eq]
  unfold descr
  rw [e]
  show (⟨((h.step (.newSubgroup r t)).run ops).pat r, t⟩ : Subgroup) = _
  rw [C72_patterns (h.step (.newSubgroup r t)) ops r hr]
  rfl

/-- C72: `subgroup.copy()` does not: its description is a new pattern, which no statement aimed at another pattern changes. -/
theorem C72_subgroup_copy (h : Memory) (g : Nat) (ops : List Call) :
    ((h.step (.copySubgroup g)).run ops).subgroup h.sgs.length = ⟨ops.foldl (patternStep h.pats.length) (h.subgroup g).description, (h.subgroup g).target⟩ := by
  have hg : h.sgs.length < (h.step (.copySubgroup g)).sgs.length := by simp [step, copySubgroup]
  have e : ((h.step (.copySubgroup g)).run ops).sgs.getD h.sgs.length noSg = (h.pats.length, (h.subgroup g).target) := by
    rw [sgs_run _ ops _ hg]; exact getD_append_length _ _ _
  rw [subgroup_eq]
  unfold descr
  rw [e, C72_patterns _ ops h.pats.length (by simp [step, copySubgroup])]
  have : (h.step (.copySubgroup g)).pat h.pats.length = (h.subgroup g).description := getD_append_length _ _ _
  rw [this]

/-! ### bitarrays -/

theorem held_of_set {h h' : Memory} {l r : Nat} {L L' : ListObj} (hl : h.lists[l]? = some L) (hls : h'.lists = h.lists.set l L')
    (hrefs : r ∈ bitRefs L' → r ∈ bitRefs L) (hr : ¬ h.Held r) : ¬ h'.Held r := by
  rintro ⟨M, hM, hrM⟩
  rw [hls] at hM
  rcases List.mem_or_eq_of_mem_set hM with hM | rfl
  · exact hr ⟨M, hM, hrM⟩
  · exact hr ⟨L, List.mem_of_getElem? hl, hrefs hrM⟩

theorem bits_step {h : Memory} (hsep : Sep h) (c : Call) (r : Nat) (hr : r < h.bits.length) (hh : ¬ h.Held r) :
    (h.step c).bit r = bitStep r (h.bit r) c ∧ r < (h.step c).bits.length ∧ ¬ (h.step c).Held r := by
  cases c with
  | newBits b => exact ⟨getD_append_left hr, by simp [step, newBits]; omega, hh⟩
  | setBit r' i v =>
    refine ⟨?_, by simpa [step, setBits] using hr, hh⟩
    simp only [step, bit_setBits, bitStep, hr, and_true]
  | newList p n rows =>
    show (h.newList p n rows).bit r = _ ∧ _ ∧ _
    by_cases h1 : rows = (h.bit p).length
    · by_cases h2 : rows = (h.bit n).length
      · obtain ⟨e1, e2, e3, e4⟩ := newList_ok h p n rows h1 h2
        refine ⟨?_, ?_, ?_⟩
        · show (h.newList p n rows).bits.getD r [] = _
          rw [e3, getD_append_left hr]; rfl
        · show r < (h.newList p n rows).bits.length
          rw [e3, List.length_append]; omega
        · rintro ⟨M, hM, hrM⟩
          have hM : M ∈ (h.newList p n rows).lists := hM
          rw [e4, List.mem_append, List.mem_singleton] at hM
          rcases hM with hM | rfl
          · exact hh ⟨M, hM, hrM⟩
          · simp [bitRefs] at hrM; omega
      · have hbad : h.newList p n rows = h := by unfold newList; rw [if_neg (by rw [← h1]; simp), if_pos h2]
        simp only [step, hbad]; exact ⟨rfl, hr, hh⟩
    · have hbad : h.newList p n rows = h := by unfold newList; rw [if_pos h1]
      simp only [step, hbad]; exact ⟨rfl, hr, hh⟩
  | addSubgroup l g p n =>
    show (h.addSubgroup l g p n).bit r = _ ∧ r < (h.addSubgroup l g p n).bits.length ∧ ¬ (h.addSubgroup l g p n).Held r
    cases hl : h.lists[l]? with
    | none => simp only [addSubgroup, hl]; exact ⟨rfl, hr, hh⟩
    | some L =>
      by_cases h1 : L.dist.2 = (h.bit p).length
      · by_cases h2 : L.dist.2 = (h.bit n).length
        · have hmem := List.mem_of_getElem? hl
          have hnd := nodup_one hsep hmem
          have hd1 := hsep.inBits L hmem L.defPos (by simp [bitRefs])
          have hd2 := hsep.inBits L hmem L.defNeg (by simp [bitRefs])
          have h12 : L.defPos ≠ L.defNeg := by
            intro h; simp [bitRefs, h] at hnd
          have n1 : r ≠ L.defPos := by rintro rfl; exact hh ⟨L, hmem, by simp [bitRefs]⟩
          have n2 : r ≠ L.defNeg := by rintro rfl; exact hh ⟨L, hmem, by simp [bitRefs]⟩
          have heq := addSubgroup_eq h l g p n L hl h1 h2
          have hb : (h.addSubgroup l g p n).bits = (h.addBits L p n).bits := by rw [heq]; rfl
          refine ⟨?_, ?_, ?_⟩
          · show (h.addSubgroup l g p n).bits.getD r [] = _
            rw [hb]
            show (h.addBits L p n).bit r = _
            rw [bit_addBits h L p n r hd1 hd2 h12, if_neg n1, if_neg n2, if_pos hr]; rfl
          · rw [hb, (addBits_other h L p n).2.2.2]; omega
          · have hls := congrArg Memory.lists heq
            have : (((h.addBits L p n).copySubgroup g).lists) = h.lists := (addBits_other h L p n).2.2.1
            simp only [setList, this] at hls
            rw [modify_eq_set _ hl] at hls
            refine held_of_set hl hls ?_ hh
            intro hr'
            have := (refs_add_perm L h.bits.length h.sgs.length).mem_iff.1 hr'
            simp only [List.mem_append, List.mem_cons, List.not_mem_nil, or_false] at this
            rcases this with h | h | h | h | h
            · exact h
            all_goals omega
        · simp only [addSubgroup, hl]; rw [if_neg (by rw [← h1]; simp), if_pos h2]; exact ⟨rfl, hr, hh⟩
      · simp only [addSubgroup, hl]; rw [if_pos h1]; exact ⟨rfl, hr, hh⟩
  | deleteLast l =>
    show (h.deleteLast l).bit r = _ ∧ r < (h.deleteLast l).bits.length ∧ ¬ (h.deleteLast l).Held r
    cases hl : h.lists[l]? with
    | none => simp only [deleteLast, hl]; exact ⟨rfl, hr, hh⟩
    | some L =>
      by_cases h1 : L.subs.length > 0
      · have hmem := List.mem_of_getElem? hl
        have n1 : r ≠ L.defPos := by rintro rfl; exact hh ⟨L, hmem, by simp [bitRefs]⟩
        have n2 : r ≠ L.defNeg := by rintro rfl; exact hh ⟨L, hmem, by simp [bitRefs]⟩
        refine ⟨?_, ?_, ?_⟩
        · simp only [deleteLast, hl, h1, if_true, bit_setBits]
          rw [if_neg (fun h => n2 h.1.symm), if_neg (fun h => n1 h.1.symm)]; rfl
        · simp only [deleteLast, hl, h1, if_true, length_setBits]; exact hr
        · have hls : (h.deleteLast l).lists = h.lists.modify l (fun L => { L with subs := L.subs.dropLast, pos := L.pos.dropLast, neg := L.neg.dropLast, origPos := L.origPos.dropLast, origNeg := L.origNeg.dropLast }) := by
            simp only [deleteLast, hl, h1, if_true]; rfl
          rw [modify_eq_set _ hl] at hls
          refine held_of_set hl hls ?_ hh
          intro hr'
          simp only [bitRefs, List.mem_cons, List.mem_append] at hr' ⊢
          rcases hr' with h | h | ((h | h) | h) | h
          · exact Or.inl h
          · exact Or.inr (Or.inl h)
          · exact Or.inr (Or.inr (Or.inl (Or.inl (Or.inl (List.dropLast_subset _ h)))))
          · exact Or.inr (Or.inr (Or.inl (Or.inl (Or.inr (List.dropLast_subset _ h)))))
          · exact Or.inr (Or.inr (Or.inl (Or.inr (List.dropLast_subset _ h))))
          · exact Or.inr (Or.inr (Or.inr (List.dropLast_subset _ h)))
      · simp only [deleteLast, hl]; rw [if_neg h1]; exact ⟨rfl, hr, hh⟩
  | _ => exact ⟨rfl, hr, hh⟩

theorem bits_run {h : Memory} (hsep : Sep h) (ops : List Call) (r : Nat) (hr : r < h.bits.length) (hh : ¬ h.Held r) :
    (h.run ops).bit r = ops.foldl (bitStep r) (h.bit r) := by
  induction ops generalizing h with
  | nil => rfl
  | cons c ops ih =>
    obtain ⟨e, hr', hh'⟩ := bits_step hsep c r hr hh
    show ((h.step c).run ops).bit r = _
    rw [ih (sep_step hsep c) hr' hh', e]; rfl

/-- C72: a bitarray that a client makes changes only by the client's own statements, however many lists it is given to. -/
theorem C72_bitarrays (before after : List Call) (b : Bits) :
    (run empty (before ++ .newBits b :: after)).bit (run empty before).bits.length = after.foldl (bitStep (run empty before).bits.length) b := by
  have hrun : run empty (before ++ .newBits b :: after) = ((run empty before).newBits b).run after := by
    unfold run; rw [List.foldl_append]; rfl
  have hsep := sep_run empty sep_empty before
  rw [hrun, bits_run (h := (run empty before).newBits b) (sep_step hsep (.newBits b)) after _ (by simp [newBits])]
  · rw [bit_newBits_self]
  · rintro ⟨L, hL, hr⟩
    have := hsep.inBits L hL _ hr
    omega

/-! ### concrete cases -/

instance (h : Memory) (r : Nat) : Decidable (h.Held r) := by unfold Held; infer_instance
instance (h : Memory) (r : Nat) : Decidable (h.HeldPattern r) := by unfold HeldPattern; infer_instance
instance (h : Memory) (c : Call) : Decidable (h.Allowed c) := by cases c <;> unfold Allowed <;> infer_instance
instance decRespectful : (h : Memory) → (ops : List Call) → Decidable (Respectful h ops)
  | _, [] => isTrue trivial
  | h, c :: ops => @instDecidableAnd _ _ _ (decRespectful (h.step c) ops)

private def sA : Selector := ⟨"a".toList, .equal, .str "x".toList⟩
private def sB : Selector := ⟨"b".toList, .equal, .str "y".toList⟩
private def sT : Selector := ⟨"t".toList, .equal, .str "p".toList⟩

/-- a program: a list of one subgroup, then changes of everything the client used to build it -/
private def demo : List Call :=
  [.newBits [true, true, false], .newBits [false, false, true], .newList 0 1 3, .newPattern [sA], .newSubgroup 0 sT, .newBits [true, false, false], .newBits [false, false, true],
   .addSubgroup 0 0 4 5, .addSelector 0 sB, .setBit 4 1 true, .setBit 0 0 false, .copySubgroup 0, .addSelector 2 sB, .newList 4 5 3, .addSubgroup 1 2 4 5, .deleteLast 0, .addSubgroup 0 0 4 5]

/-- a program that changes what the list hands out: `get_subgroup(0).description.add_selector(s)` (object 1 is the description of the copy that the list holds) -/
private def rude : List Call :=
  [.newBits [true, true, false], .newBits [false, false, true], .newList 0 1 3, .newPattern [sA], .newSubgroup 0 sT, .newBits [true, false, false], .newBits [false, false, true],
   .addSubgroup 0 0 4 5, .addSelector 1 sB]

example : Respectful empty demo := by decide +kernel
/-- what the first list of `demo` holds: the second `add_subgroup`, with the values of that moment; the second list holds the copy of the subgroup as it was changed -/
example : ((run empty demo).lists.map (run empty demo).listVal).map (fun l => l.subs.map (fun s => s.description.sels)) = [[[sA, sB]], [[sA, sB]]] := by decide +kernel
example : ((run empty (demo.take 13)).lists.map (run empty (demo.take 13)).listVal).map (fun l => (l.subs.map (fun s => s.description.sels), l.defPos, l.origPos)) =
    [([[sA]], [false, true, false], [[true, false, false]])] := by decide +kernel

/-- C72: the hypothesis is needed: `get_subgroup` and the getters of the bitarrays return the objects themselves. -/
theorem C72_lists_fails : ∃ ops : List Call, ¬ Respectful empty ops ∧
    ((run empty ops).lists.map (run empty ops).listVal).map (fun l => l.subs.map (fun s => s.description.sels)) ≠ (values empty [] ops).map (fun l => l.subs.map (fun s => s.description.sels)) :=
  ⟨rude, by decide +kernel, by decide +kernel⟩

end Memory
end Verif

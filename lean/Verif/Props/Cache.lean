import Verif.Spec.Cache
import Verif.Props.MDL
import Mathlib.Data.List.Nodup
/-! Property C112: the caches of the MDL functions. -/
namespace Verif.Cache
open Verif.Spec

theorem firsts_nodup (l : List Key) : (firsts l).Nodup := by
  induction l with
  | nil => exact List.nodup_nil
  | cons k l ih =>
    unfold firsts
    exact List.nodup_cons.2 ⟨by simp, ih.filter _⟩

theorem mem_firsts (l : List Key) (k : Key) : k ∈ firsts l ↔ k ∈ l := by
  induction l with
  | nil => rfl
  | cons x l ih =>
    unfold firsts
    by_cases h : k = x
    · simp [h]
    · simp [h, ih]

theorem take_filter_absent {l : List Key} {k : Key} (m : Nat) (h : k ∉ l.take m) : (l.filter (fun x => x ≠ k)).take m = l.take m := by
  induction l generalizing m with
  | nil => simp
  | cons x l ih =>
    cases m with
    | zero => simp
    | succ m =>
      rw [List.take_succ_cons, List.mem_cons, not_or] at h
      have hx : x ≠ k := fun e => h.1 e.symm
      rw [List.filter_cons_of_pos (by simpa using hx), List.take_succ_cons, List.take_succ_cons, ih m h.2]

theorem filter_take_present {l : List Key} {k : Key} (hn : l.Nodup) (m : Nat) (h : k ∈ l.take (m + 1)) :
    (l.take (m + 1)).filter (fun x => x ≠ k) = (l.filter (fun x => x ≠ k)).take m := by
  induction l generalizing m with
  | nil => simp
  | cons x l ih =>
    rw [List.nodup_cons] at hn
    rw [List.take_succ_cons] at h ⊢
    by_cases hx : x = k
    · subst hx
      have h1 : ∀ l' : List Key, x ∉ l' → l'.filter (fun y => y ≠ x) = l' := by
        intro l' hl'
        refine List.filter_eq_self.2 (fun y hy => ?_)
        have : y ≠ x := fun e => hl' (e ▸ hy)
        simpa using this
      rw [List.filter_cons_of_neg (by simp), List.filter_cons_of_neg (by simp), h1 _ hn.1, h1 _ (fun hm => hn.1 (List.mem_of_mem_take hm))]
    · have hk : k ∈ l.take m := by
        rcases List.mem_cons.1 h with e | e
        · exact absurd e.symm hx
        · exact e
      rw [List.filter_cons_of_pos (by simpa using hx), List.filter_cons_of_pos (by simpa using hx)]
      cases m with
      | zero => simp at hk
      | succ m => rw [List.take_succ_cons, ih hn.2 m hk]

section
variable {V : Type} {size : Nat} {f : Call → Except PyErr V}

theorem lookup_none_iff (st : State V) (k : Key) : st.lookup k = none ↔ k ∉ st.map (·.1) := by
  rw [List.lookup_eq_none_iff]
  simp only [List.mem_map, not_exists, not_and]
  constructor
  · intro h e he hk
    have := h e he
    rw [hk] at this
    simp at this
  · intro h e he
    have h1 : k ≠ e.1 := fun hk => h e he hk.symm
    simpa using h1

theorem lookup_mem {st : State V} {k : Key} {v : V} (h : st.lookup k = some v) : (k, v) ∈ st := by
  induction st with
  | nil => cases h
  | cons e st ih =>
    rw [List.lookup_cons] at h
    by_cases hk : k == e.1
    · rw [hk] at h
      have e1 := eq_of_beq hk
      have e2 : e.2 = v := by simpa using h
      have e3 : e = (k, v) := by rw [e1, ← e2]
      rw [e3]
      exact List.mem_cons_self
    · have hk' : (k == e.1) = false := by simpa using hk
      rw [hk'] at h
      exact List.mem_cons_of_mem _ (ih h)

theorem lookup_isSome {st : State V} {k : Key} (h : k ∈ st.map (·.1)) : ∃ v, st.lookup k = some v := by
  cases h1 : st.lookup k with
  | some v => exact ⟨v, rfl⟩
  | none => exact absurd h ((lookup_none_iff st k).1 h1)

/-- what the cache holds: the last `size` different keys of calls that returned -/
theorem after_keys (hs : 1 ≤ size) (h : List Call) : (after size f h).map (·.1) = (firsts (returned size f h)).take size := by
  induction h with
  | nil => simp [after, returned, firsts]
  | cons c h ih =>
    obtain ⟨m, rfl⟩ : ∃ m, size = m + 1 := ⟨size - 1, by omega⟩
    unfold after
    have hd : returned (m + 1) f (c :: h) = match result (m + 1) f h c with
      | .ok _ => key c :: returned (m + 1) f h
      | .error _ => returned (m + 1) f h := rfl
    rw [hd]
    unfold result call
    cases h1 : (after (m + 1) f h).lookup (key c) with
    | some v =>
      simp only
      have hm := (List.mem_map_of_mem (f := (·.1)) (lookup_mem h1))
      have hm' : key c ∈ (firsts (returned (m + 1) f h)).take (m + 1) := by rw [← ih]; exact hm
      unfold firsts
      rw [List.map_cons, List.take_succ_cons, ← filter_take_present (firsts_nodup _) m hm', ← ih, List.filter_map]
      rfl
    | none =>
      have hm' : key c ∉ (firsts (returned (m + 1) f h)).take (m + 1) := by rw [← ih]; exact (lookup_none_iff _ _).1 h1
      cases h2 : f c with
      | error e => simp only; exact ih
      | ok v =>
        simp only
        unfold firsts
        rw [List.take_succ_cons, List.take_succ_cons, List.map_cons, List.map_take, ih, take_filter_absent m]
        · rw [List.take_take, Nat.min_eq_left (by omega)]
        · intro hc
          exact hm' ((List.take_sublist_take_left (by omega)).subset hc)

/-- what is cached has been returned by the function -/
theorem after_values (h : List Call) (k : Key) (v : V) (hm : (k, v) ∈ after size f h) : ∃ c ∈ h, key c = k ∧ f c = .ok v := by
  induction h generalizing k v with
  | nil => cases hm
  | cons c h ih =>
    have lift : (∃ c' ∈ h, key c' = k ∧ f c' = .ok v) → ∃ c' ∈ c :: h, key c' = k ∧ f c' = .ok v :=
      fun ⟨c', h1, h2⟩ => ⟨c', List.mem_cons_of_mem _ h1, h2⟩
    unfold after call at hm
    cases h1 : (after size f h).lookup (key c) with
    | some w =>
      rw [h1] at hm
      simp only [List.mem_cons] at hm
      rcases hm with e | e
      · cases e; exact lift (ih _ _ (lookup_mem h1))
      · exact lift (ih _ _ (List.mem_filter.1 e).1)
    | none =>
      rw [h1] at hm
      cases h2 : f c with
      | error e => rw [h2] at hm; exact lift (ih _ _ hm)
      | ok w =>
        rw [h2] at hm
        have := List.mem_of_mem_take hm
        rcases List.mem_cons.1 this with e | e
        · cases e; exact ⟨c, List.mem_cons_self, rfl, h2⟩
        · exact lift (ih _ _ e)

/-- **C112.** What a call returns: if its key is among the last `size` different keys of calls that returned, the value that the function gave to an earlier call with this key; else what the
function gives. -/
theorem C112_cache (hs : 1 ≤ size) (earlier : List Call) (c : Call) :
    (key c ∈ (firsts (returned size f earlier)).take size → ∃ c' ∈ earlier, key c' = key c ∧ ∃ v, f c' = .ok v ∧ result size f earlier c = .ok v) ∧
    (key c ∉ (firsts (returned size f earlier)).take size → result size f earlier c = f c) := by
  rw [← after_keys hs]
  constructor
  · intro h
    obtain ⟨v, hv⟩ := lookup_isSome h
    obtain ⟨c', h1, h2, h3⟩ := after_values _ _ _ (lookup_mem hv)
    refine ⟨c', h1, h2, v, h3, ?_⟩
    unfold result call
    rw [hv]
  · intro h
    unfold result call
    rw [(lookup_none_iff _ _).2 h]
    cases h2 : f c <;> rfl

/-- the cache never holds more than `size` entries -/
theorem C112_size (hs : 1 ≤ size) (earlier : List Call) : (after size f earlier).length ≤ size := by
  have := congrArg List.length (after_keys (f := f) hs earlier)
  rw [List.length_map, List.length_take] at this
  omega

end

/-! ### the functions of `mdl.py` -/

theorem key_int_args {c c' : Call} (h : key c' = key c) :
    (∃ n, c = ⟨[.int n], []⟩ ∧ c' = c) ∨ (c'.pos.map Num.val = c.pos.map Num.val ∧ c'.kw.map (fun e => (e.1, e.2.val)) = c.kw.map (fun e => (e.1, e.2.val)) ∧
      (∀ n, c ≠ ⟨[.int n], []⟩) ∧ ∀ n, c' ≠ ⟨[.int n], []⟩) := by
  have hk : ∀ d : Call, (∃ n, d = ⟨[.int n], []⟩ ∧ key d = .int n) ∨
      ((∀ n, d ≠ ⟨[.int n], []⟩) ∧ key d = .args (d.pos.map Num.val) (d.kw.map (fun e => (e.1, e.2.val)))) := by
    rintro ⟨pos, kw⟩
    unfold key
    split
    · rename_i n e
      left; exact ⟨n, e, rfl⟩
    · rename_i pos' kw' hne e
      cases e
      right; exact ⟨fun n e => by injection e with e1 e2; exact hne n e1 e2, rfl⟩
  rcases hk c with ⟨n, h1, h2⟩ | ⟨h1, h2⟩ <;> rcases hk c' with ⟨n', h3, h4⟩ | ⟨h3, h4⟩
  · left
    rw [h2, h4] at h
    cases h
    exact ⟨n, h1, by rw [h3, h1]⟩
  · rw [h2, h4] at h; cases h
  · rw [h2, h4] at h; cases h
  · right
    rw [h2, h4] at h
    injection h with e1 e2
    exact ⟨e1, e2, h1, h3⟩

theorem val_int {a : Num} {m n : Int} (ha : a = .int m) (h : a.val = (Num.int n).val) : a = .int n := by
  subst ha
  change ((m : Int) : Rat) = ((n : Int) : Rat) at h
  have : m = n := by exact_mod_cast h
  rw [this]

theorem map_int_eq {l l' : List Num} (hl : ∀ a ∈ l, ∃ n, a = .int n) (hl' : ∀ a ∈ l', ∃ n, a = .int n) (h : l'.map Num.val = l.map Num.val) : l' = l := by
  induction l generalizing l' with
  | nil => exact List.map_eq_nil_iff.1 h
  | cons a l ih =>
    cases l' with
    | nil => cases h
    | cons b l' =>
      rw [List.map_cons, List.map_cons] at h
      injection h with h1 h2
      obtain ⟨n, hn⟩ := hl a List.mem_cons_self
      obtain ⟨m, hm⟩ := hl' b List.mem_cons_self
      rw [hn] at h1
      rw [val_int hm h1, hn, ih (fun x hx => hl x (List.mem_cons_of_mem _ hx)) (fun x hx => hl' x (List.mem_cons_of_mem _ hx)) h2]

theorem map_kw_eq {l l' : List (Str × Num)} (hl : ∀ e ∈ l, ∃ n, e.2 = .int n) (hl' : ∀ e ∈ l', ∃ n, e.2 = .int n)
    (h : l'.map (fun e => (e.1, e.2.val)) = l.map (fun e => (e.1, e.2.val))) : l' = l := by
  induction l generalizing l' with
  | nil => exact List.map_eq_nil_iff.1 h
  | cons a l ih =>
    cases l' with
    | nil => cases h
    | cons b l' =>
      rw [List.map_cons, List.map_cons] at h
      injection h with h1 h2
      obtain ⟨n, hn⟩ := hl a List.mem_cons_self
      obtain ⟨m, hm⟩ := hl' b List.mem_cons_self
      obtain ⟨a1, a2⟩ := a
      obtain ⟨b1, b2⟩ := b
      simp only [Prod.mk.injEq] at h1 hn hm
      rw [hn] at h1
      rw [h1.1, val_int hm h1.2, hn, ih (fun x hx => hl x (List.mem_cons_of_mem _ hx)) (fun x hx => hl' x (List.mem_cons_of_mem _ hx)) h2]

/-- two calls with integers only and the same key are the same call -/
theorem ints_key {c c' : Call} (h : AllInts c) (h' : AllInts c') (hk : key c' = key c) : c' = c := by
  rcases key_int_args hk with ⟨n, _, h2⟩ | ⟨h1, h2, _, _⟩
  · exact h2
  · obtain ⟨p, k⟩ := c
    obtain ⟨p', k'⟩ := c'
    rw [show p' = p from map_int_eq h.1 h'.1 h1, show k' = k from map_kw_eq h.2 h'.2 h2]

theorem filterMap_lookup {ps : List Str} {kw : List (Str × Num)} (h : (kw.map (·.1)).Perm ps) (hn : ps.Nodup) {e : Str × Num} (he : e ∈ kw) :
    e.2 ∈ ps.filterMap (fun p => kw.lookup p) := by
  refine List.mem_filterMap.2 ⟨e.1, h.subset (List.mem_map_of_mem he), ?_⟩
  have hn' : (kw.map (·.1)).Nodup := h.nodup_iff.2 hn
  clear h hn
  induction kw with
  | nil => cases he
  | cons x kw ih =>
    rw [List.map_cons, List.nodup_cons] at hn'
    rw [List.lookup_cons]
    rcases List.mem_cons.1 he with rfl | h1
    · simp
    · have : e.1 ≠ x.1 := fun h2 => hn'.1 (h2 ▸ List.mem_map_of_mem h1)
      have h3 : (e.1 == x.1) = false := by simpa using this
      rw [h3]
      exact ih h1 hn'.2

/-- a call that is bound to integers has integers only -/
theorem bind_ints {params : List Str} (hn : params.Nodup) {c : Call} {l : List Num} (h : bind params c = .ok l) (hl : ∀ a ∈ l, ∃ n, a = .int n) : AllInts c := by
  unfold bind at h
  by_cases hc : c.pos.length ≤ params.length ∧ ((c.kw.map (·.1)).isPerm (params.drop c.pos.length)) = true
  · rw [if_pos hc] at h
    cases h
    refine ⟨fun a ha => hl a (List.mem_append_left _ ha), fun e he => hl e.2 (List.mem_append_right _ ?_)⟩
    exact filterMap_lookup (List.isPerm_iff.1 hc.2) (hn.sublist (List.drop_sublist _ _)) he
  · rw [if_neg hc] at h; cases h

theorem codeFn_ok {c : Call} {v : ℝ} (h : codeFn c = .ok v) : AllInts c := by
  unfold codeFn at h
  cases hb : bind [c!"input_integer_value"] c with
  | error e => rw [hb] at h; cases h
  | ok l =>
    rw [hb] at h
    refine bind_ints (by decide) hb (fun a ha => ?_)
    split at h
    · cases h
    · rename_i n hl
      cases hl
      exact ⟨n, List.mem_singleton.1 ha⟩
    · cases h

theorem log2Fn_ok {c : Call} {v : ℝ} (h : log2Fn c = .ok v) : AllInts c := by
  unfold log2Fn at h
  cases hb : bind [c!"number_of_categories", c!"number_of_samples"] c with
  | error e => rw [hb] at h; cases h
  | ok l =>
    rw [hb] at h
    refine bind_ints (by decide) hb (fun a ha => ?_)
    split at h
    · cases h
    · rename_i x y hl
      cases hl
      rcases List.mem_cons.1 ha with e | e
      · exact ⟨x, e⟩
      · exact ⟨y, List.mem_singleton.1 e⟩
    · cases h

section
variable {V : Type} {f : Call → Except PyErr V}

/-- the cache cannot be seen with integers -/
theorem ints_result (hf : ∀ c v, f c = .ok v → AllInts c) {size : Nat} (hs : 1 ≤ size) (earlier : List Call) (c : Call) (hc : AllInts c) :
    result size f earlier c = f c := by
  obtain ⟨h1, h2⟩ := C112_cache (f := f) hs earlier c
  by_cases h : key c ∈ (firsts (returned size f earlier)).take size
  · obtain ⟨c', _, hk, v, hv, hr⟩ := h1 h
    rw [ints_key hc (hf c' v hv) hk] at hv
    rw [hr, hv]
  · exact h2 h

/-- with other numbers, the value of an earlier call with equal integers may be given -/
theorem other_result (hf : ∀ c v, f c = .ok v → AllInts c) {size : Nat} (hs : 1 ≤ size) (earlier : List Call) (c : Call) (hc : ¬ AllInts c) :
    (key c ∈ (firsts (returned size f earlier)).take size → ∃ c' ∈ earlier, AllInts c' ∧ key c' = key c ∧ result size f earlier c = f c') ∧
    (key c ∉ (firsts (returned size f earlier)).take size → ∃ e, f c = .error e ∧ result size f earlier c = .error e) := by
  obtain ⟨h1, h2⟩ := C112_cache (f := f) hs earlier c
  constructor
  · intro h
    obtain ⟨c', hm, hk, v, hv, hr⟩ := h1 h
    exact ⟨c', hm, hf c' v hv, hk, by rw [hr, hv]⟩
  · intro h
    rw [h2 h]
    cases hfc : f c with
    | error e => exact ⟨e, rfl, rfl⟩
    | ok v => exact absurd (hf c v hfc) hc

end

/-- **C112.** After any history of calls with any arguments, `universal_code_for_integer` and `log2_multinomial_with_recurrence`, called with arguments of type `int`, by position or by name, give
what they would give without a cache. -/
theorem C112_ints (earlier : List Call) (c : Call) (hc : AllInts c) :
    result 1000 codeFn earlier c = codeFn c ∧ result 1000 log2Fn earlier c = log2Fn c :=
  ⟨ints_result (fun _ _ h => codeFn_ok h) (by norm_num) earlier c hc, ints_result (fun _ _ h => log2Fn_ok h) (by norm_num) earlier c hc⟩

theorem typeError_of_bind {params : List Str} {c : Call} {e : PyErr} (h : bind params c = .error e) : e = .typeError := by
  unfold bind at h
  by_cases hc : c.pos.length ≤ params.length ∧ ((c.kw.map (·.1)).isPerm (params.drop c.pos.length)) = true
  · rw [if_pos hc] at h; cases h
  · rw [if_neg hc] at h; cases h; rfl

theorem codeFn_other {c : Call} (hc : ¬ AllInts c) : codeFn c = .error .typeError := by
  unfold codeFn
  cases hb : bind [c!"input_integer_value"] c with
  | error e => rw [typeError_of_bind hb]
  | ok l =>
    split
    · rename_i h; cases h
    · rename_i n hl
      cases hl
      exact absurd (bind_ints (by decide) hb (fun a ha => ⟨n, List.mem_singleton.1 ha⟩)) hc
    · rfl

theorem log2Fn_other {c : Call} (hc : ¬ AllInts c) : log2Fn c = .error .typeError := by
  unfold log2Fn
  cases hb : bind [c!"number_of_categories", c!"number_of_samples"] c with
  | error e => rw [typeError_of_bind hb]
  | ok l =>
    split
    · rename_i h; cases h
    · rename_i x y hl
      cases hl
      refine absurd (bind_ints (by decide) hb (fun a ha => ?_)) hc
      rcases List.mem_cons.1 ha with e | e
      · exact ⟨x, e⟩
      · exact ⟨y, List.mem_singleton.1 e⟩
    · rfl

/-- **C112.** With an argument that is a float or a boolean, `log2_multinomial_with_recurrence` raises `TypeError` unless a call with the same names and equal numbers is among the last 1000
different ones that returned; then it gives the value of an earlier call with equal integers. The same holds of `universal_code_for_integer`. -/
theorem C112_others (earlier : List Call) (c : Call) (hc : ¬ AllInts c) :
    ((key c ∈ (firsts (returned 1000 log2Fn earlier)).take 1000 → ∃ c' ∈ earlier, AllInts c' ∧ key c' = key c ∧ result 1000 log2Fn earlier c = log2Fn c') ∧
      (key c ∉ (firsts (returned 1000 log2Fn earlier)).take 1000 → result 1000 log2Fn earlier c = .error .typeError)) ∧
    ((key c ∈ (firsts (returned 1000 codeFn earlier)).take 1000 → ∃ c' ∈ earlier, AllInts c' ∧ key c' = key c ∧ result 1000 codeFn earlier c = codeFn c') ∧
      (key c ∉ (firsts (returned 1000 codeFn earlier)).take 1000 → result 1000 codeFn earlier c = .error .typeError)) := by
  obtain ⟨a1, a2⟩ := other_result (fun _ _ h => log2Fn_ok h) (by norm_num : 1 ≤ 1000) earlier c hc
  obtain ⟨b1, b2⟩ := other_result (fun _ _ h => codeFn_ok h) (by norm_num : 1 ≤ 1000) earlier c hc
  refine ⟨⟨a1, fun h => ?_⟩, b1, fun h => ?_⟩
  · obtain ⟨e, h1, h2⟩ := a2 h
    rw [log2Fn_other hc] at h1
    cases h1; exact h2
  · obtain ⟨e, h1, h2⟩ := b2 h
    rw [codeFn_other hc] at h1
    cases h1; exact h2

/-- **C112.** By position, `universal_code_for_integer` always refuses floats and booleans: its keys for a single integer are not those of other numbers. -/
theorem C112_code_position (earlier : List Call) (a : Num) (ha : ∀ n, a ≠ .int n) : result 1000 codeFn earlier ⟨[a], []⟩ = .error .typeError := by
  have hc : ¬ AllInts ⟨[a], []⟩ := fun h => by
    obtain ⟨n, hn⟩ := h.1 a List.mem_cons_self
    exact ha n hn
  obtain ⟨_, h1, h2⟩ := C112_others earlier ⟨[a], []⟩ hc
  by_cases hk : key ⟨[a], []⟩ ∈ (firsts (returned 1000 codeFn earlier)).take 1000
  · obtain ⟨c', _, hi, hk', _⟩ := h1 hk
    rcases key_int_args hk' with ⟨n, e, _⟩ | ⟨e1, e2, _, e4⟩
    · cases e; exact absurd rfl (ha n)
    · obtain ⟨p, k⟩ := c'
      have hk0 : k = [] := by simpa using e2
      have hp : p.length = 1 := by simpa using congrArg List.length e1
      obtain ⟨x, rfl⟩ := List.length_eq_one_iff.1 hp
      obtain ⟨n, hn⟩ := hi.1 x List.mem_cons_self
      exact absurd (by rw [hk0, hn]) (e4 n)
  · exact h2 hk

theorem lookup_pair {p : Str} {kw : List (Str × Num)} {a : Num} (h : kw.lookup p = some a) : (p, a) ∈ kw := by
  induction kw with
  | nil => cases h
  | cons e kw ih =>
    rw [List.lookup_cons] at h
    by_cases hp : (p == e.1) = true
    · rw [hp] at h
      have e1 := eq_of_beq hp
      have e2 : e.2 = a := by simpa using h
      rw [show (p, a) = e by rw [e1, ← e2]]
      exact List.mem_cons_self
    · have hp' : (p == e.1) = false := by simpa using hp
      rw [hp'] at h
      exact List.mem_cons_of_mem _ (ih h)

/-- what `bind` takes depends on the numbers only through their positions: equal calls are bound to equal numbers -/
theorem bind_vals (params : List Str) {c c' : Call} (hp : c'.pos.map Num.val = c.pos.map Num.val) (hk : c'.kw.map (fun e => (e.1, e.2.val)) = c.kw.map (fun e => (e.1, e.2.val))) :
    (∃ l l', bind params c = .ok l ∧ bind params c' = .ok l' ∧ l'.map Num.val = l.map Num.val) ∨
      (bind params c = .error .typeError ∧ bind params c' = .error .typeError) := by
  have hlen : c'.pos.length = c.pos.length := by simpa using congrArg List.length hp
  have hnames : c'.kw.map (·.1) = c.kw.map (·.1) := by
    have := congrArg (List.map (fun e : Str × Rat => e.1)) hk
    simpa [List.map_map, Function.comp_def] using this
  have hlk : ∀ p, (c'.kw.lookup p).map Num.val = (c.kw.lookup p).map Num.val := by
    intro p
    have aux : ∀ kw : List (Str × Num), (kw.lookup p).map Num.val = (kw.map (fun e => (e.1, e.2.val))).lookup p := by
      intro kw
      induction kw with
      | nil => rfl
      | cons e kw ih =>
        rw [List.map_cons, List.lookup_cons, List.lookup_cons]
        by_cases h : (p == e.1) = true
        · simp only [h]; rfl
        · have h' : (p == e.1) = false := by simpa using h
          simp only [h']; exact ih
    rw [aux, aux, hk]
  unfold bind
  rw [hlen, hnames]
  by_cases hc : c.pos.length ≤ params.length ∧ ((c.kw.map (·.1)).isPerm (params.drop c.pos.length)) = true
  · left
    refine ⟨_, _, if_pos hc, if_pos hc, ?_⟩
    rw [List.map_append, List.map_append, hp]
    congr 1
    generalize params.drop c.pos.length = ps
    induction ps with
    | nil => rfl
    | cons p ps ih =>
      rw [List.filterMap_cons, List.filterMap_cons]
      have := hlk p
      cases h1 : c'.kw.lookup p <;> cases h2 : c.kw.lookup p <;> rw [h1, h2] at this
      · exact ih
      · cases this
      · cases this
      · simp only [List.map_cons, ih]
        injection this with e
        rw [e]
  · right
    exact ⟨if_neg hc, if_neg hc⟩

theorem maxInt_val {a b : Num} {m n : Int} (ha : maxInt a = some m) (hb : maxInt b = some n) (h : a.val = b.val) : m = n := by
  have aux : ∀ {x : Num} {k : Int}, maxInt x = some k → x.val = (k : Rat) := by
    intro x k hx
    cases x with
    | int i => cases hx; rfl
    | bool i => cases hx; cases i <;> simp [Num.val]
    | float q => cases hx
  rw [aux ha, aux hb] at h
  exact_mod_cast h

/-- equal calls: the same value, unless one of them is refused for its types -/
theorem maxFn_key {c c' : Call} {v : Option ℝ} (hk : key c' = key c) (hv : maxFn c' = .ok v) : maxFn c = .ok v ∨ maxFn c = .error .typeError := by
  rcases key_int_args hk with ⟨_, _, h⟩ | ⟨hp, hw, _, _⟩
  · left; rw [← h]; exact hv
  · unfold maxFn at hv ⊢
    rcases bind_vals [c!"input_integer_value", c!"maximum_integer_value"] hp hw with ⟨l, l', h1, h2, h3⟩ | ⟨_, h2⟩
    · rw [h2] at hv
      rw [h1]
      rcases l' with _ | ⟨x', _ | ⟨y', _ | ⟨z', t'⟩⟩⟩ <;> try (cases hv)
      obtain ⟨x, y, rfl⟩ : ∃ x y, l = [x, y] := List.length_eq_two.1 (by simpa using (congrArg List.length h3).symm)
      simp only [List.map_cons, List.map_nil, List.cons.injEq, and_true] at h3
      cases hy' : maxInt y' with
      | none => simp only [hy'] at hv; cases hv
      | some m' =>
        cases hy : maxInt y with
        | none => right; simp only [hy]
        | some m =>
          have hm := maxInt_val hy' hy h3.2
          subst hm
          cases x' with
          | bool b => simp only [hy'] at hv; cases hv
          | float q => simp only [hy'] at hv; cases hv
          | int n' =>
            cases x with
            | bool b => right; simp only [hy]
            | float q => right; simp only [hy]
            | int n =>
              left
              have hn : n' = n := by exact_mod_cast (show ((n' : Int) : Rat) = ((n : Int) : Rat) from h3.1)
              subst hn
              simp only [hy'] at hv
              simp only [hy]
              exact hv
    · rw [h2] at hv; cases hv

/-- **C112.** `universal_code_for_integer_with_maximum` after any history of calls: what it gives without a cache, or a value where it would raise `TypeError` without a cache, because an equal call
returned that value before; never another value. With integers only it gives what it gives without a cache. -/
theorem C112_maximum (earlier : List Call) (c : Call) :
    (result 1000 maxFn earlier c = maxFn c ∨
      (maxFn c = .error .typeError ∧ ∃ c' ∈ earlier, key c' = key c ∧ ∃ v, maxFn c' = .ok v ∧ result 1000 maxFn earlier c = .ok v)) ∧
    (AllInts c → result 1000 maxFn earlier c = maxFn c) := by
  obtain ⟨h1, h2⟩ := C112_cache (f := maxFn) (by norm_num : 1 ≤ 1000) earlier c
  have h : result 1000 maxFn earlier c = maxFn c ∨
      (maxFn c = .error .typeError ∧ ∃ c' ∈ earlier, key c' = key c ∧ ∃ v, maxFn c' = .ok v ∧ result 1000 maxFn earlier c = .ok v) := by
    by_cases hk : key c ∈ (firsts (returned 1000 maxFn earlier)).take 1000
    · obtain ⟨c', hm, hk', v, hv, hr⟩ := h1 hk
      rcases maxFn_key hk' hv with e | e
      · left; rw [hr, e]
      · right; exact ⟨e, c', hm, hk', v, hv, hr⟩
    · left; exact h2 hk
  refine ⟨h, fun hc => ?_⟩
  rcases h with h | ⟨ht, c', _, hk, v, hv, _⟩
  · exact h
  · exfalso
    rcases key_int_args hk with ⟨_, _, he⟩ | ⟨hp, hw, _, _⟩
    · rw [he, ht] at hv; cases hv
    · unfold maxFn at ht hv
      rcases bind_vals [c!"input_integer_value", c!"maximum_integer_value"] hp hw with ⟨l, l', e1, e2, e3⟩ | ⟨_, e2⟩
      · have hl : ∀ a ∈ l, ∃ n, a = .int n := by
          unfold bind at e1
          by_cases hcnd : c.pos.length ≤ [c!"input_integer_value", c!"maximum_integer_value"].length ∧
              ((c.kw.map (·.1)).isPerm ([c!"input_integer_value", c!"maximum_integer_value"].drop c.pos.length)) = true
          · rw [if_pos hcnd] at e1
            cases e1
            intro a ha
            rcases List.mem_append.1 ha with ha | ha
            · exact hc.1 a ha
            · obtain ⟨p, _, hp'⟩ := List.mem_filterMap.1 ha
              exact hc.2 _ (lookup_pair hp')
          · rw [if_neg hcnd] at e1; cases e1
        have hlen : l.length = l'.length := by
          have := congrArg List.length e3
          simpa using this.symm
        rw [e2] at hv
        rw [e1] at ht
        rcases l' with _ | ⟨x', _ | ⟨y', _ | ⟨z', t'⟩⟩⟩ <;> try (cases hv)
        obtain ⟨x, y, rfl⟩ : ∃ x y, l = [x, y] := List.length_eq_two.1 (by simpa using hlen)
        obtain ⟨n, rfl⟩ := hl x (by simp)
        obtain ⟨m, rfl⟩ := hl y (by simp)
        simp only [maxInt] at ht
        by_cases hn : n < 0
        · rw [if_pos hn] at ht; cases ht
        · rw [if_neg hn] at ht
          by_cases hm : 0 ≤ m
          · rw [if_pos hm] at ht
            unfold MDL.codeWithMaximum at ht
            by_cases h0 : m.toNat = 0
            · rw [if_pos h0] at ht; cases ht
            · rw [if_neg h0] at ht
              split at ht <;> cases ht
          · rw [if_neg hm] at ht
            split at ht <;> cases ht
      · rw [e2] at hv; cases hv

/-- **C112.** So the check of the types depends on the history: `log2_multinomial_with_recurrence(2.0, 5)` raises `TypeError` in a new process, and gives the value of `(2, 5)` after that call. -/
theorem C112_history : result 1000 log2Fn [] ⟨[.float 2, .int 5], []⟩ = .error .typeError ∧
    result 1000 log2Fn [⟨[.int 2, .int 5], []⟩] ⟨[.float 2, .int 5], []⟩ = .ok (Real.logb 2 (complexityTwo 5)) := by
  have hc : ¬ AllInts ⟨[.float 2, .int 5], []⟩ := fun h => by
    obtain ⟨n, hn⟩ := h.1 (.float 2) List.mem_cons_self
    cases hn
  have h25 : log2Fn ⟨[.int 2, .int 5], []⟩ = .ok (Real.logb 2 (complexityTwo 5)) := (MDL.C46_complexityTwo 5 (by norm_num)).1
  constructor
  · refine (C112_others [] _ hc).1.2 (fun h => ?_)
    simp [returned, firsts] at h
  · have hr : returned 1000 log2Fn [⟨[.int 2, .int 5], []⟩] = [key ⟨[.int 2, .int 5], []⟩] := by
      unfold returned
      have : result 1000 log2Fn [] ⟨[.int 2, .int 5], []⟩ = log2Fn ⟨[.int 2, .int 5], []⟩ := by
        unfold result call after
        rw [h25]; rfl
      rw [this, h25]
      rfl
    obtain ⟨c', hm, _, _, h⟩ := (C112_others [⟨[.int 2, .int 5], []⟩] _ hc).1.1 (by
      rw [hr]
      have : key ⟨[.int 2, .int 5], []⟩ = key ⟨[.float 2, .int 5], []⟩ := by
        unfold key Num.val
        simp
      rw [← this]
      simp [firsts])
    rw [h, List.mem_singleton.1 hm, h25]

/-- the hypotheses of `C112_ints` are met -/
example : result 1000 codeFn [⟨[.float 3], []⟩, ⟨[.int 7], []⟩] ⟨[.int 3], []⟩ = .ok (MDL.code 3) := by
  rw [(C112_ints _ _ ⟨by simp, by simp⟩).1]
  rfl

end Verif.Cache

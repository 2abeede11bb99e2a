import Verif.Props.Selector
import Verif.Model.Pools
/-! Properties C84 and C85: the pool of selectors and the only instances of the measures, for all schedules of threads and of the garbage collector. -/
namespace Verif
open Spec

namespace SelPool

/-! ## invariants -/

/-- the selectors asked for in a schedule -/
def _root_.Verif.Spec.asked (es : List Event) (s : Selector) : Prop := ∃ t, Event.call t s.attr s.op s.val ∈ es

structure Inv (A : Selector → Prop) (st : State) : Prop where
  pool : ∀ e ∈ st.pool, ∃ s, st.objs[e.2]? = some s ∧ s.str = e.1
  objs : ∀ s ∈ st.objs, A s ∧ Selector.legal s.op s.val = true
  pcs : ∀ t s, st.pc t = .check s ∨ st.pc t = .found s ∨ st.pc t = .absent s → A s ∧ Selector.legal s.op s.val = true
  log : ∀ x ∈ st.log,
    (Selector.legal x.asked.op x.asked.val = false ∧ x.result = .error .valueError) ∨
    (Selector.legal x.asked.op x.asked.val = true ∧ x.result = .error .keyError) ∨
    (Selector.legal x.asked.op x.asked.val = true ∧ ∃ o s, x.result = .ok o ∧ st.objs[o]? = some s ∧ s.str = x.asked.str)

theorem getElem?_append_some {α : Type} {l : List α} {i : Nat} {a : α} (h : l[i]? = some a) (m : List α) : (l ++ m)[i]? = some a := by
  have hi : i < l.length := (List.getElem?_eq_some_iff.1 h).1
  rw [List.getElem?_append_left hi, h]

theorem pcs_setPc {A : Selector → Prop} {st : State} {t : Nat} {p : Pc}
    (h : ∀ t s, st.pc t = .check s ∨ st.pc t = .found s ∨ st.pc t = .absent s → A s ∧ Selector.legal s.op s.val = true)
    (hp : ∀ s, p = .check s ∨ p = .found s ∨ p = .absent s → A s ∧ Selector.legal s.op s.val = true) :
    ∀ u s, (st.setPc t p).pc u = .check s ∨ (st.setPc t p).pc u = .found s ∨ (st.setPc t p).pc u = .absent s →
      A s ∧ Selector.legal s.op s.val = true := by
  intro u s hu
  simp only [State.setPc] at hu
  by_cases hut : u = t
  · simp only [hut, if_true] at hu; exact hp s hu
  · simp only [hut, if_false] at hu; exact h u s hu

theorem inv_event {A : Selector → Prop} {st : State} (h : Inv A st) (e : Event) (he : ∀ t a op v, e = .call t a op v → A ⟨a, op, v⟩) :
    Inv A (st.event e) := by
  obtain ⟨h1, h2, h3, h4⟩ := h
  cases e with
  | call t a op v =>
    have hA := he t a op v rfl
    simp only [State.event]
    cases hp : st.pc t with
    | idle =>
      simp only
      by_cases hl : Selector.legal op v = true
      · rw [if_pos hl]
        exact ⟨h1, h2, pcs_setPc h3 (by
          rintro s (hh | hh | hh) <;> cases hh
          exact ⟨hA, hl⟩), h4⟩
      · rw [if_neg hl]
        refine ⟨h1, h2, pcs_setPc h3 (by rintro s (hh | hh | hh) <;> cases hh), ?_⟩
        intro x hx
        simp only [State.finish, State.setPc, List.mem_append, List.mem_singleton] at hx
        rcases hx with hx | rfl
        · exact h4 x hx
        · left; exact ⟨by simpa using hl, rfl⟩
    | check s => exact ⟨h1, h2, h3, h4⟩
    | found s => exact ⟨h1, h2, h3, h4⟩
    | absent s => exact ⟨h1, h2, h3, h4⟩
  | step t =>
    simp only [State.event]
    cases hp : st.pc t with
    | idle => exact ⟨h1, h2, h3, h4⟩
    | check s =>
      have hs := h3 t s (Or.inl hp)
      simp only
      split
      · exact ⟨h1, h2, pcs_setPc h3 (by rintro s' (hh | hh | hh) <;> cases hh; exact hs), h4⟩
      · exact ⟨h1, h2, pcs_setPc h3 (by rintro s' (hh | hh | hh) <;> cases hh; exact hs), h4⟩
    | found s =>
      have hs := h3 t s (Or.inr (Or.inl hp))
      simp only
      cases hl : st.pool.lookup s.str with
      | some o =>
        simp only
        refine ⟨h1, h2, pcs_setPc h3 (by rintro s (hh | hh | hh) <;> cases hh), ?_⟩
        intro x hx
        simp only [State.finish, State.setPc, List.mem_append, List.mem_singleton] at hx
        rcases hx with hx | rfl
        · exact h4 x hx
        · right; right
          have hm : (s.str, o) ∈ st.pool := by
            obtain ⟨l1, l2, h1, _⟩ := List.lookup_eq_some_iff.1 hl
            simp [h1]
          obtain ⟨s', g1, g2⟩ := h1 _ hm
          exact ⟨hs.2, o, s', rfl, g1, g2⟩
      | none =>
        simp only
        refine ⟨h1, h2, pcs_setPc h3 (by rintro s (hh | hh | hh) <;> cases hh), ?_⟩
        intro x hx
        simp only [State.finish, State.setPc, List.mem_append, List.mem_singleton] at hx
        rcases hx with hx | rfl
        · exact h4 x hx
        · right; left; exact ⟨hs.2, rfl⟩
    | absent s =>
      have hs := h3 t s (Or.inr (Or.inr hp))
      simp only
      refine ⟨?_, ?_, pcs_setPc h3 (by rintro s (hh | hh | hh) <;> cases hh), ?_⟩
      · intro e he
        simp only [State.finish, State.setPc, List.mem_cons, List.mem_filter] at he ⊢
        rcases he with rfl | ⟨he, _⟩
        · exact ⟨s, by simp, rfl⟩
        · obtain ⟨s', g1, g2⟩ := h1 e he
          exact ⟨s', getElem?_append_some g1 _, g2⟩
      · intro s' hs'
        simp only [State.finish, State.setPc, List.mem_append, List.mem_singleton] at hs'
        rcases hs' with hs' | rfl
        · exact h2 s' hs'
        · exact hs
      · intro x hx
        simp only [State.finish, State.setPc, List.mem_append, List.mem_singleton] at hx ⊢
        rcases hx with hx | rfl
        · rcases h4 x hx with g | g | ⟨g, o, s', g1, g2, g3⟩
          · exact Or.inl g
          · exact Or.inr (Or.inl g)
          · exact Or.inr (Or.inr ⟨g, o, s', g1, getElem?_append_some g2 _, g3⟩)
        · right; right; exact ⟨hs.2, _, s, rfl, by simp, rfl⟩
  | drop o => exact ⟨h1, h2, h3, h4⟩
  | collect o =>
    simp only [State.event]
    split
    · exact ⟨h1, h2, h3, h4⟩
    · exact ⟨fun e he => h1 e (List.mem_filter.1 he).1, h2, h3, h4⟩

theorem inv_run {A : Selector → Prop} (es : List Event) (hA : ∀ s, asked es s → A s) {st : State} (h : Inv A st) : Inv A (st.run es) := by
  induction es generalizing st with
  | nil => exact h
  | cons e es ih =>
    apply ih
    · rintro s ⟨t, ht⟩; exact hA s ⟨t, by simp [ht]⟩
    · apply inv_event h
      rintro t a op v rfl
      exact hA ⟨a, op, v⟩ ⟨t, by simp⟩

theorem inv_init (A : Selector → Prop) : Inv A init := ⟨by simp [init], by simp [init], by simp [init], by simp [init]⟩

theorem inv_of (es : List Event) : Inv (asked es) (init.run es) := inv_run es (fun _ h => h) (inv_init _)

/-! ## C84 -/

/-- C84: whatever the threads and the garbage collector do and in whatever order, a call of `Selector` with an ordering operator and a text raises `ValueError`; every other call that ends raises `KeyError` or
returns an object that was made for a call of the schedule and prints as the selector asked for. -/
theorem C84_outcomes (es : List Event) (x : Outcome) (hx : x ∈ (init.run es).log) :
    if Selector.legal x.asked.op x.asked.val then
      x.result = .error .keyError ∨ ∃ o s, x.result = .ok o ∧ (init.run es).objs[o]? = some s ∧ asked es s ∧ s.str = x.asked.str
    else x.result = .error .valueError := by
  have h := inv_of es
  rcases h.log x hx with ⟨g, h1⟩ | ⟨g, h1⟩ | ⟨g, o, s, h1, h2, h3⟩
  · rw [g]; simpa using h1
  · rw [g]; simpa using Or.inl h1
  · rw [g]
    simp only [if_true]
    exact Or.inr ⟨o, s, h1, h2, (h.objs s (List.mem_of_getElem? h2)).1, h3⟩

/-- the attribute names that the calls ask for have no simple quote, or none has a blank -/
def _root_.Verif.Spec.PlainNames (es : List Event) : Prop :=
  (∀ s, asked es s → '\'' ∉ s.attr) ∨ (∀ s, asked es s → ' ' ∉ s.attr)

theorem asked_of_log (es : List Event) : ∀ x ∈ (init.run es).log, asked es x.asked := by
  have gen : ∀ (es : List Event) (A : Selector → Prop) (st : State), (∀ s, asked es s → A s) →
      (∀ t s, st.pc t = .check s ∨ st.pc t = .found s ∨ st.pc t = .absent s → A s) → (∀ x ∈ st.log, A x.asked) →
      ∀ x ∈ (st.run es).log, A x.asked := by
    intro es A
    induction es with
    | nil => intro st _ _ h; exact h
    | cons e es ih =>
      intro st hA hpc hlog
      have hset : ∀ (t : Nat) (p : Pc), (∀ s, p = .check s ∨ p = .found s ∨ p = .absent s → A s) →
          ∀ u s, (st.setPc t p).pc u = .check s ∨ (st.setPc t p).pc u = .found s ∨ (st.setPc t p).pc u = .absent s → A s := by
        intro t p hp u s hu
        simp only [State.setPc] at hu
        by_cases hut : u = t
        · simp only [hut, if_true] at hu; exact hp s hu
        · simp only [hut, if_false] at hu; exact hpc u s hu
      have hidle : ∀ s, Pc.idle = .check s ∨ Pc.idle = .found s ∨ Pc.idle = .absent s → A s := by rintro s (h | h | h) <;> cases h
      have hfin : ∀ (t : Nat) (s : Selector) (r : Except PyErr Nat), A s → ∀ x ∈ st.log ++ [(⟨t, s, r⟩ : Outcome)], A x.asked := by
        intro t s r hs x hx
        rcases List.mem_append.1 hx with hx | hx
        · exact hlog x hx
        · rw [List.mem_singleton.1 hx]; exact hs
      have hA' : ∀ s, asked es s → A s := fun s ⟨t, ht⟩ => hA s ⟨t, by simp [ht]⟩
      show ∀ x ∈ ((st.event e).run es).log, A x.asked
      cases e with
      | call t a op v =>
        have ha : A ⟨a, op, v⟩ := hA ⟨a, op, v⟩ ⟨t, by simp⟩
        simp only [State.event]
        cases hp : st.pc t with
        | idle =>
          simp only
          by_cases hl : Selector.legal op v = true
          · rw [if_pos hl]
            exact ih _ hA' (hset t _ (by rintro s (h | h | h) <;> cases h; exact ha)) hlog
          · rw [if_neg hl]
            exact ih _ hA' (hset t _ hidle) (hfin t _ _ ha)
        | check s => exact ih _ hA' hpc hlog
        | found s => exact ih _ hA' hpc hlog
        | absent s => exact ih _ hA' hpc hlog
      | step t =>
        simp only [State.event]
        cases hp : st.pc t with
        | idle => exact ih _ hA' hpc hlog
        | check s =>
          have hs := hpc t s (Or.inl hp)
          simp only
          split
          · exact ih _ hA' (hset t _ (by rintro s' (h | h | h) <;> cases h; exact hs)) hlog
          · exact ih _ hA' (hset t _ (by rintro s' (h | h | h) <;> cases h; exact hs)) hlog
        | found s =>
          have hs := hpc t s (Or.inr (Or.inl hp))
          simp only
          cases hl : st.pool.lookup s.str with
          | some o => exact ih _ hA' (hset t _ hidle) (hfin t _ _ hs)
          | none => exact ih _ hA' (hset t _ hidle) (hfin t _ _ hs)
        | absent s =>
          have hs := hpc t s (Or.inr (Or.inr hp))
          exact ih _ hA' (hset t _ hidle) (hfin t _ _ hs)
      | drop o => exact ih _ hA' hpc hlog
      | collect o =>
        simp only [State.event]
        split
        · exact ih _ hA' hpc hlog
        · exact ih _ hA' hpc hlog
  exact gen es _ init (fun _ h => h) (by simp [init]) (by simp [init])

/-- C84: with plain attribute names the object returned has exactly the fields asked for, under all schedules. -/
theorem C84_fields (es : List Event) (hp : PlainNames es) (x : Outcome) (hx : x ∈ (init.run es).log) (o : Nat) (ho : x.result = .ok o) :
    (init.run es).objs[o]? = some x.asked := by
  have h := inv_of es
  have ha := asked_of_log es x hx
  rcases h.log x hx with ⟨_, h1⟩ | ⟨_, h1⟩ | ⟨g, o', s, h1, h2, h3⟩
  · rw [ho] at h1; cases h1
  · rw [ho] at h1; cases h1
  · rw [ho] at h1
    cases h1
    rw [h2]
    have hs := (h.objs s (List.mem_of_getElem? h2)).1
    rcases hp with hp | hp
    · rw [Selector.str_inj_of_no_quote (hp s hs) (hp _ ha) h3]
    · rw [Selector.str_inj_of_no_blank (hp s hs) (hp _ ha) h3]

/-- the key that a thread has found is still in the dictionary -/
def Sure (st : State) : Prop := ∀ t s, st.pc t = .found s → s.str ∈ st.pool.map (·.1)

theorem contains_keys (st : State) (k : Str) : (st.pool.map (·.1)).contains k = true ↔ k ∈ st.pool.map (·.1) := List.contains_iff_mem

theorem lookup_isSome {st : State} {k : Str} (h : k ∈ st.pool.map (·.1)) : ∃ o, st.pool.lookup k = some o := by
  cases hl : st.pool.lookup k with
  | some o => exact ⟨o, rfl⟩
  | none =>
    rw [List.lookup_eq_none_iff] at hl
    obtain ⟨e, he, rfl⟩ := List.mem_map.1 h
    have := hl e he
    simp at this

/-- one event that is not a collection: a key that is in the dictionary stays there, and no call ends with `KeyError` unless a thread has lost its key before -/
theorem keys_event (st : State) (e : Event) (he : ∀ o, e ≠ .collect o) (k : Str) (hk : k ∈ st.pool.map (·.1)) : k ∈ (st.event e).pool.map (·.1) := by
  cases e with
  | call t a op v =>
    simp only [State.event]
    cases st.pc t with
    | idle => simp only; split <;> exact hk
    | check s => exact hk
    | found s => exact hk
    | absent s => exact hk
  | step t =>
    simp only [State.event]
    cases st.pc t with
    | idle => exact hk
    | check s => simp only; split <;> exact hk
    | found s => simp only; split <;> exact hk
    | absent s =>
      simp only [State.finish, State.setPc, List.map_cons, List.mem_cons]
      by_cases hks : k = s.str
      · exact Or.inl hks
      · right
        obtain ⟨e, he, rfl⟩ := List.mem_map.1 hk
        exact List.mem_map.2 ⟨e, List.mem_filter.2 ⟨he, by simpa using hks⟩, rfl⟩
  | drop o => exact hk
  | collect o => exact absurd rfl (he o)

theorem sure_event (st : State) (e : Event) (he : ∀ o, e ≠ .collect o) (h : Sure st) : Sure (st.event e) := by
  intro t s hs
  by_cases hold : st.pc t = .found s
  · exact keys_event st e he _ (h t s hold)
  · -- the thread has just found it
    cases e with
    | call u a op v =>
      exfalso
      simp only [State.event] at hs
      cases hu : st.pc u with
      | idle =>
        rw [hu] at hs
        simp only at hs
        split at hs
        · simp only [State.setPc] at hs
          split at hs
          · cases hs
          · exact hold hs
        · simp only [State.finish, State.setPc] at hs
          split at hs
          · cases hs
          · exact hold hs
      | check s' => rw [hu] at hs; exact hold hs
      | found s' => rw [hu] at hs; exact hold hs
      | absent s' => rw [hu] at hs; exact hold hs
    | step u =>
      simp only [State.event] at hs ⊢
      cases hu : st.pc u with
      | idle => rw [hu] at hs; exact absurd hs hold
      | check s' =>
        rw [hu] at hs
        simp only at hs ⊢
        by_cases hc : (st.pool.map (·.1)).contains s'.str = true
        · rw [if_pos hc] at hs ⊢
          simp only [State.setPc] at hs ⊢
          split at hs
          · cases hs
            exact (contains_keys st _).1 hc
          · exact absurd hs hold
        · rw [if_neg hc] at hs
          exfalso
          simp only [State.setPc] at hs
          split at hs
          · cases hs
          · exact hold hs
      | found s' =>
        exfalso
        rw [hu] at hs
        simp only at hs
        split at hs
        · simp only [State.finish, State.setPc] at hs
          split at hs
          · cases hs
          · exact hold hs
        · simp only [State.finish, State.setPc] at hs
          split at hs
          · cases hs
          · exact hold hs
      | absent s' =>
        exfalso
        rw [hu] at hs
        simp only [State.finish, State.setPc] at hs
        split at hs
        · cases hs
        · exact hold hs
    | drop o => exact absurd hs hold
    | collect o => exact absurd rfl (he o)

/-- without collections no call raises `KeyError` -/
theorem nokey_event (st : State) (e : Event) (he : ∀ o, e ≠ .collect o) (h : Sure st) (hl : ∀ x ∈ st.log, x.result ≠ .error .keyError) :
    ∀ x ∈ (st.event e).log, x.result ≠ .error .keyError := by
  have hfin : ∀ (t : Nat) (s : Selector) (r : Except PyErr Nat), r ≠ .error .keyError → ∀ x ∈ st.log ++ [(⟨t, s, r⟩ : Outcome)], x.result ≠ .error .keyError := by
    intro t s r hs x hx
    rcases List.mem_append.1 hx with hx | hx
    · exact hl x hx
    · rw [List.mem_singleton.1 hx]; exact hs
  cases e with
  | call t a op v =>
    simp only [State.event]
    cases st.pc t with
    | idle =>
      simp only
      split
      · exact hl
      · exact hfin _ _ _ (by intro hh; cases hh)
    | check s => exact hl
    | found s => exact hl
    | absent s => exact hl
  | step t =>
    simp only [State.event]
    cases hp : st.pc t with
    | idle => exact hl
    | check s => simp only; split <;> exact hl
    | found s =>
      obtain ⟨o, ho⟩ := lookup_isSome (h t s hp)
      simp only [ho]
      exact hfin _ _ _ (by intro hh; cases hh)
    | absent s => exact hfin _ _ _ (by intro hh; cases hh)
  | drop o => exact hl
  | collect o => exact absurd rfl (he o)

/-- C84: as long as no selector is collected, no call raises `KeyError`, whatever the threads do. -/
theorem C84_no_collection (es : List Event) (hc : ∀ o, Event.collect o ∉ es) : ∀ x ∈ (init.run es).log, x.result ≠ .error .keyError := by
  have gen : ∀ (es : List Event) (st : State), (∀ o, Event.collect o ∉ es) → Sure st → (∀ x ∈ st.log, x.result ≠ .error .keyError) →
      ∀ x ∈ (st.run es).log, x.result ≠ .error .keyError := by
    intro es
    induction es with
    | nil => intro st _ _ h; exact h
    | cons e es ih =>
      intro st hc hs hl
      have he : ∀ o, e ≠ .collect o := fun o hh => hc o (by simp [hh])
      exact ih _ (fun o ho => hc o (by simp [ho])) (sure_event st e he hs) (nokey_event st e he hs hl)
  exact gen es init hc (by intro t s h; simp [init] at h) (by simp [init])

theorem run_append (st : State) (a b : List Event) : st.run (a ++ b) = (st.run a).run b := List.foldl_append

/-- the events of the other threads do not move thread `t` -/
theorem pc_other (st : State) (e : Event) (t : Nat) (h1 : ∀ a op v, e ≠ .call t a op v) (h2 : e ≠ .step t) : (st.event e).pc t = st.pc t := by
  cases e with
  | call u a op v =>
    have hu : t ≠ u := fun hh => h1 a op v (by rw [hh])
    simp only [State.event]
    cases st.pc u with
    | idle =>
      simp only
      split
      · simp [State.setPc, hu]
      · simp [State.finish, State.setPc, hu]
    | check s => rfl
    | found s => rfl
    | absent s => rfl
  | step u =>
    have hu : t ≠ u := fun hh => h2 (by rw [hh])
    simp only [State.event]
    cases st.pc u with
    | idle => rfl
    | check s => simp only; split <;> simp [State.setPc, hu]
    | found s => simp only; split <;> simp [State.finish, State.setPc, hu]
    | absent s => simp [State.finish, State.setPc, hu]
  | drop o => rfl
  | collect o => simp only [State.event]; split <;> rfl

/-- C84: a call raises `KeyError` only if some selector is collected between its two accesses to the pool: if, after the schedule `es1`, thread `t` is about to look whether the key is there, and no collection
happens until its next access, then this access ends the call with an object. (Calls of the other threads may happen in between.) -/
theorem C84_window (es1 es2 : List Event) (t : Nat) (s : Selector) (hpc : (init.run es1).pc t = .check s)
    (hc : ∀ o, Event.collect o ∉ es2) (hs : Event.step t ∉ es2) :
    ∃ o, (init.run (es1 ++ [.step t] ++ es2 ++ [.step t])).log = (init.run (es1 ++ [.step t] ++ es2)).log ++ [⟨t, s, .ok o⟩] := by
  have hfirst : (init.run (es1 ++ [.step t])).pc t = .found s ∧ s.str ∈ (init.run (es1 ++ [.step t])).pool.map (·.1) ∨
      (init.run (es1 ++ [.step t])).pc t = .absent s := by
    rw [run_append]
    show ((init.run es1).event (.step t)).pc t = .found s ∧ s.str ∈ ((init.run es1).event (.step t)).pool.map (·.1) ∨ ((init.run es1).event (.step t)).pc t = .absent s
    simp only [State.event, hpc]
    by_cases hk : ((init.run es1).pool.map (·.1)).contains s.str = true
    · rw [if_pos hk]
      left
      exact ⟨by simp [State.setPc], (contains_keys _ _).1 hk⟩
    · rw [if_neg hk]
      right
      simp [State.setPc]
  have gen : ∀ (es : List Event) (st : State), (∀ o, Event.collect o ∉ es) → Event.step t ∉ es →
      (st.pc t = .found s ∧ s.str ∈ st.pool.map (·.1) ∨ st.pc t = .absent s) →
      ((st.run es).pc t = .found s ∧ s.str ∈ (st.run es).pool.map (·.1) ∨ (st.run es).pc t = .absent s) := by
    intro es
    induction es with
    | nil => intro st _ _ h; exact h
    | cons e es ih =>
      intro st hc hs h
      have he : ∀ o, e ≠ .collect o := fun o hh => hc o (by simp [hh])
      have hst : e ≠ .step t := fun hh => hs (by simp [hh])
      apply ih _ (fun o ho => hc o (by simp [ho])) (fun hh => hs (by simp [hh]))
      have hp : (st.event e).pc t = st.pc t := by
        by_cases hcall : ∃ a op v, e = .call t a op v
        · obtain ⟨a, op, v, rfl⟩ := hcall
          simp only [State.event]
          rcases h with ⟨h, _⟩ | h <;> rw [h] <;> simp only [h]
        · push Not at hcall
          exact pc_other st e t hcall hst
      rw [hp]
      rcases h with ⟨h, hk⟩ | h
      · exact Or.inl ⟨h, keys_event st e he _ hk⟩
      · exact Or.inr h
  have h := gen es2 _ hc hs hfirst
  rw [← run_append] at h
  generalize hS : init.run (es1 ++ [Event.step t] ++ es2) = S at h
  rw [run_append, hS]
  show ∃ o, (S.event (.step t)).log = S.log ++ [⟨t, s, .ok o⟩]
  rcases h with ⟨h, hk⟩ | h
  · obtain ⟨o, ho⟩ := lookup_isSome hk
    refine ⟨o, ?_⟩
    simp only [State.event, h, ho]
    rfl
  · exact ⟨S.objs.length, by simp only [State.event, h]; rfl⟩

/-- object `o` is the one under the key, it is held, and no thread is about to replace it -/
structure Held (k : Str) (o : Nat) (st : State) : Prop where
  held : o ∈ st.refs
  entry : st.pool.lookup k = some o
  quiet : ∀ t s, st.pc t = .absent s → s.str ≠ k

theorem lookup_filter_ne {l : List (Str × Nat)} {k k' : Str} (h : k ≠ k') : (l.filter (fun e => decide (e.1 ≠ k'))).lookup k = l.lookup k := by
  induction l with
  | nil => rfl
  | cons e l ih =>
    obtain ⟨a, b⟩ := e
    have ih' : List.lookup k (List.filter (fun e => !decide (e.1 = k')) l) = List.lookup k l := by simpa using ih
    by_cases ha : a = k'
    · have hb : (k == k') = false := by simpa using h
      simp [ha, List.lookup_cons, hb, ih']
    · by_cases hk : k = a
      · have hk' : ¬ k = k' := h
        subst hk
        simp [hk']
      · have : (k == a) = false := by simpa using hk
        simp [ha, List.lookup_cons, this, ih']

theorem lookup_filter_obj {l : List (Str × Nat)} {k : Str} {o o' : Nat} (hne : o ≠ o') (h : l.lookup k = some o) :
    (l.filter (fun e => decide (e.2 ≠ o'))).lookup k = some o := by
  induction l with
  | nil => simp at h
  | cons e l ih =>
    obtain ⟨a, b⟩ := e
    by_cases hk : k = a
    · simp only [List.lookup_cons, hk, beq_self_eq_true, Option.some.injEq] at h
      simp [h, hne, List.lookup_cons, hk]
    · have hkb : (k == a) = false := by simpa using hk
      simp only [List.lookup_cons, hkb] at h
      have ih' : List.lookup k (List.filter (fun e => !decide (e.2 = o')) l) = some o := by simpa using ih h
      by_cases hb : b = o'
      · simp [hb, ih']
      · simp [hb, List.lookup_cons, hkb, ih']

theorem held_event {k : Str} {o : Nat} {st : State} (h : Held k o st) (e : Event) (he : e ≠ .drop o) :
    Held k o (st.event e) ∧ ∃ new, (st.event e).log = st.log ++ new ∧
      ∀ x ∈ new, x.asked.str = k → Selector.legal x.asked.op x.asked.val = true → x.result = .ok o ∨ ∃ t, e = .step t ∧ st.pc t = .check x.asked := by
  obtain ⟨h1, h2, h3⟩ := h
  have hk : k ∈ st.pool.map (·.1) := by
    obtain ⟨l1, l2, hh, _⟩ := List.lookup_eq_some_iff.1 h2
    simp [hh]
  have hquiet : ∀ (t : Nat) (p : Pc), (∀ s, p = .absent s → s.str ≠ k) → ∀ u s, (st.setPc t p).pc u = .absent s → s.str ≠ k := by
    intro t p hp u s hu
    simp only [State.setPc] at hu
    split at hu
    · exact hp s hu
    · exact h3 u s hu
  cases e with
  | call t a op v =>
    simp only [State.event]
    cases hp : st.pc t with
    | idle =>
      simp only
      by_cases hl : Selector.legal op v = true
      · rw [if_pos hl]
        exact ⟨⟨h1, h2, hquiet t _ (by intro s hh; cases hh)⟩, [], by simp [State.setPc], by simp⟩
      · rw [if_neg hl]
        refine ⟨⟨h1, h2, hquiet t _ (by intro s hh; cases hh)⟩, _, rfl, ?_⟩
        intro x hx _ hleg
        rw [List.mem_singleton.1 hx] at hleg
        exact absurd hleg hl
    | check s => exact ⟨⟨h1, h2, h3⟩, [], by simp, by simp⟩
    | found s => exact ⟨⟨h1, h2, h3⟩, [], by simp, by simp⟩
    | absent s => exact ⟨⟨h1, h2, h3⟩, [], by simp, by simp⟩
  | step t =>
    simp only [State.event]
    cases hp : st.pc t with
    | idle => exact ⟨⟨h1, h2, h3⟩, [], by simp, by simp⟩
    | check s =>
      simp only
      by_cases hc : (st.pool.map (·.1)).contains s.str = true
      · rw [if_pos hc]
        exact ⟨⟨h1, h2, hquiet t _ (by intro s hh; cases hh)⟩, [], by simp [State.setPc], by simp⟩
      · rw [if_neg hc]
        refine ⟨⟨h1, h2, hquiet t _ ?_⟩, [], by simp [State.setPc], by simp⟩
        intro s' hh hsk
        cases hh
        rw [hsk] at hc
        exact hc ((contains_keys st k).2 hk)
    | found s =>
      simp only
      cases hl : st.pool.lookup s.str with
      | some o' =>
        refine ⟨⟨List.mem_cons_of_mem _ h1, h2, hquiet t _ (by intro s hh; cases hh)⟩, _, rfl, ?_⟩
        intro x hx hxk _
        rw [List.mem_singleton.1 hx] at hxk ⊢
        simp only at hxk
        rw [hxk, h2] at hl
        left
        rw [Option.some.inj hl]
      | none =>
        refine ⟨⟨h1, h2, hquiet t _ (by intro s hh; cases hh)⟩, _, rfl, ?_⟩
        intro x hx hxk _
        rw [List.mem_singleton.1 hx] at hxk
        simp only at hxk
        rw [hxk, h2] at hl
        cases hl
    | absent s =>
      have hne := h3 t s hp
      refine ⟨⟨List.mem_cons_of_mem _ h1, ?_, hquiet t _ (by intro s hh; cases hh)⟩, _, rfl, ?_⟩
      · show List.lookup k ((s.str, st.objs.length) :: st.pool.filter (fun e => e.1 ≠ s.str)) = some o
        have hb : (k == s.str) = false := by simpa using fun hh => hne hh.symm
        rw [List.lookup_cons, hb]
        simp only
        rw [lookup_filter_ne (fun hh => hne hh.symm), h2]
      · intro x hx hxk _
        rw [List.mem_singleton.1 hx] at hxk
        exact absurd hxk hne
  | drop o' =>
    have hne : o ≠ o' := fun hh => he (by rw [hh])
    exact ⟨⟨(List.mem_erase_of_ne hne).2 h1, h2, h3⟩, [], by simp [State.event], by simp⟩
  | collect o' =>
    simp only [State.event]
    by_cases hr : st.refs.contains o' = true
    · rw [if_pos hr]; exact ⟨⟨h1, h2, h3⟩, [], by simp, by simp⟩
    · rw [if_neg hr]
      have hne : o ≠ o' := fun hh => hr (by rw [← hh]; exact List.contains_iff_mem.2 h1)
      exact ⟨⟨h1, lookup_filter_obj hne h2, h3⟩, [], by simp, by simp⟩

theorem held_run {k : Str} {o : Nat} (es : List Event) (hd : Event.drop o ∉ es) {st : State} (h : Held k o st) :
    ∃ new, (st.run es).log = st.log ++ new ∧
      ∀ x ∈ new, x.asked.str = k → Selector.legal x.asked.op x.asked.val = true → x.result = .ok o := by
  induction es generalizing st with
  | nil => exact ⟨[], by simp [State.run], by simp⟩
  | cons e es ih =>
    obtain ⟨g1, new1, g2, g3⟩ := held_event h e (fun hh => hd (by simp [hh]))
    obtain ⟨new2, g4, g5⟩ := ih (fun hh => hd (by simp [hh])) g1
    refine ⟨new1 ++ new2, ?_, ?_⟩
    · show ((st.event e).run es).log = _
      rw [g4, g2, List.append_assoc]
    · intro x hx hk hl
      rcases List.mem_append.1 hx with hx | hx
      · rcases g3 x hx hk hl with g | ⟨t, rfl, ht⟩
        · exact g
        · exfalso
          simp only [State.event, ht] at g2
          split at g2 <;> (simp only [State.setPc] at g2; have := List.self_eq_append_right.1 g2; rw [this] at hx; simp at hx)
      · exact g5 x hx hk hl

/-- C84: once a call of thread `t` has returned the object `o` and no other thread is between its look-up of the same text and the entry of its own new object, every call for the same text, by any thread, returns this very object until the
program gives it up. -/
theorem C84_identity (es1 es2 : List Event) (t o : Nat) (s : Selector)
    (h1 : (init.run (es1 ++ [.step t])).log = (init.run es1).log ++ [⟨t, s, .ok o⟩])
    (hq : ∀ u s', (init.run (es1 ++ [.step t])).pc u = .absent s' → s'.str ≠ s.str) (hd : Event.drop o ∉ es2) :
    ∃ new, (init.run (es1 ++ [.step t] ++ es2)).log = (init.run (es1 ++ [.step t])).log ++ new ∧
      ∀ x ∈ new, x.asked.str = s.str → Selector.legal x.asked.op x.asked.val = true → x.result = .ok o := by
  rw [run_append init (es1 ++ [Event.step t]) es2]
  apply held_run es2 hd
  refine ⟨?_, ?_, hq⟩
  all_goals
    rw [run_append] at h1 ⊢
    generalize hS : init.run es1 = S at h1
    change (S.event (.step t)).log = _ at h1
  · show o ∈ (S.event (.step t)).refs
    simp only [State.event] at h1 ⊢
    cases hp : S.pc t with
    | idle => rw [hp] at h1; simp at h1
    | check s' => rw [hp] at h1; simp only at h1; split at h1 <;> simp [State.setPc] at h1
    | found s' =>
      rw [hp] at h1
      simp only at h1 ⊢
      cases hl : S.pool.lookup s'.str with
      | some o' =>
        rw [hl] at h1
        simp only [State.finish, State.setPc, List.append_cancel_left_eq, List.cons.injEq, Outcome.mk.injEq, Except.ok.injEq, and_true, true_and] at h1
        simp [State.finish, State.setPc, h1.2]
      | none =>
        rw [hl] at h1
        simp [State.finish, State.setPc] at h1
    | absent s' =>
      rw [hp] at h1
      simp only [State.finish, State.setPc, List.append_cancel_left_eq, List.cons.injEq, Outcome.mk.injEq, Except.ok.injEq, and_true, true_and] at h1
      simp [State.finish, State.setPc, h1.2]
  · show (S.event (.step t)).pool.lookup s.str = some o
    simp only [State.event] at h1 ⊢
    cases hp : S.pc t with
    | idle => rw [hp] at h1; simp at h1
    | check s' => rw [hp] at h1; simp only at h1; split at h1 <;> simp [State.setPc] at h1
    | found s' =>
      rw [hp] at h1
      simp only at h1 ⊢
      cases hl : S.pool.lookup s'.str with
      | some o' =>
        rw [hl] at h1
        simp only [State.finish, State.setPc, List.append_cancel_left_eq, List.cons.injEq, Outcome.mk.injEq, Except.ok.injEq, and_true, true_and] at h1
        rw [← h1.1, ← h1.2]
        exact hl
      | none =>
        rw [hl] at h1
        simp [State.finish, State.setPc] at h1
    | absent s' =>
      rw [hp] at h1
      simp only [State.finish, State.setPc, List.append_cancel_left_eq, List.cons.injEq, Outcome.mk.injEq, Except.ok.injEq, and_true, true_and] at h1
      rw [← h1.1, ← h1.2]
      simp [State.finish, State.setPc, List.lookup_cons]

/-- the pool as the sequential model (`Selector.new`) sees it -/
def State.view (st : State) : Selector.Pool := st.pool.map (fun e => (e.1, st.objs.getD e.2 ⟨[], .equal, .int 0⟩))

/-- C84: a call that nothing interrupts does, after any schedule, exactly what the sequential constructor of C02 does: same exception, or an object with the same fields, and the same entries in the pool. -/
theorem C84_sequential (es : List Event) (t : Nat) (hpc : (init.run es).pc t = .idle) (a : Str) (op : Op) (v : Val) :
    match Selector.new (init.run es).view a op v with
    | .error e => ∃ r, (init.run (es ++ [.call t a op v, .step t, .step t])).log = (init.run es).log ++ [⟨t, ⟨a, op, v⟩, r⟩] ∧ r = .error e
    | .ok (s, p) => ∃ o, (init.run (es ++ [.call t a op v, .step t, .step t])).log = (init.run es).log ++ [⟨t, ⟨a, op, v⟩, .ok o⟩] ∧
        (init.run (es ++ [.call t a op v, .step t, .step t])).objs[o]? = some s ∧
        ∀ k, (init.run (es ++ [.call t a op v, .step t, .step t])).view.lookup k = p.lookup k := by
  have hinv := inv_of es
  rw [run_append]
  generalize init.run es = S at hpc hinv
  have hstr : a ++ c!" " ++ op.str ++ c!" " ++ Selector.valText v = (⟨a, op, v⟩ : Selector).str := rfl
  have hview : ∀ k, S.view.lookup k = (S.pool.lookup k).map (fun o => S.objs.getD o ⟨[], .equal, .int 0⟩) := by
    intro k
    unfold State.view
    induction S.pool with
    | nil => rfl
    | cons e l ih =>
      obtain ⟨x, y⟩ := e
      simp only [List.map_cons, List.lookup_cons]
      cases hk : (k == x) with
      | true => rfl
      | false => exact ih
  have hrun : S.run [.call t a op v, .step t, .step t] = ((S.event (.call t a op v)).event (.step t)).event (.step t) := rfl
  unfold Selector.new
  rw [hstr]
  by_cases hl : Selector.legal op v = true
  · simp only [hl, Bool.not_true, Bool.false_eq_true, if_false]
    have e1 : S.event (.call t a op v) = S.setPc t (.check ⟨a, op, v⟩) := by simp only [State.event, hpc, hl, if_true]
    cases hlk : S.pool.lookup (⟨a, op, v⟩ : Selector).str with
    | some o =>
      have hm : ((⟨a, op, v⟩ : Selector).str, o) ∈ S.pool := by
        obtain ⟨l1, l2, hh, _⟩ := List.lookup_eq_some_iff.1 hlk
        simp [hh]
      obtain ⟨s, g1, g2⟩ := hinv.pool _ hm
      have hgd : S.objs.getD o ⟨[], .equal, .int 0⟩ = s := by rw [List.getD_eq_getElem?_getD, g1]; rfl
      rw [hview, hlk]
      simp only [Option.map_some, hgd]
      have hc : (S.pool.map (·.1)).contains (⟨a, op, v⟩ : Selector).str = true := by
        rw [contains_keys]; exact List.mem_map.2 ⟨_, hm, rfl⟩
      have e2 : (S.event (.call t a op v)).event (.step t) = (S.setPc t (.check ⟨a, op, v⟩)).setPc t (.found ⟨a, op, v⟩) := by
        rw [e1]
        have : (S.setPc t (.check ⟨a, op, v⟩)).pc t = .check ⟨a, op, v⟩ := by simp [State.setPc]
        simp only [State.event, this]
        exact if_pos hc
      have e3 : S.run [.call t a op v, .step t, .step t] = ((S.setPc t (.check ⟨a, op, v⟩)).setPc t (.found ⟨a, op, v⟩)).finish t ⟨a, op, v⟩ (.ok o) := by
        rw [hrun, e2]
        have h1 : ((S.setPc t (.check ⟨a, op, v⟩)).setPc t (.found ⟨a, op, v⟩)).pc t = .found ⟨a, op, v⟩ := by simp [State.setPc]
        have h2 : ((S.setPc t (.check ⟨a, op, v⟩)).setPc t (.found ⟨a, op, v⟩)).pool.lookup (⟨a, op, v⟩ : Selector).str = some o := hlk
        simp only [State.event, h1, h2]
      rw [e3]
      exact ⟨o, rfl, g1, fun k => rfl⟩
    | none =>
      rw [hview, hlk]
      simp only [Option.map_none]
      have hc : ¬ (S.pool.map (·.1)).contains (⟨a, op, v⟩ : Selector).str = true := by
        rw [contains_keys]
        intro hm
        obtain ⟨o, ho⟩ := lookup_isSome hm
        rw [hlk] at ho
        cases ho
      have e2 : (S.event (.call t a op v)).event (.step t) = (S.setPc t (.check ⟨a, op, v⟩)).setPc t (.absent ⟨a, op, v⟩) := by
        rw [e1]
        have : (S.setPc t (.check ⟨a, op, v⟩)).pc t = .check ⟨a, op, v⟩ := by simp [State.setPc]
        simp only [State.event, this]
        exact if_neg hc
      have e3 : (S.run [.call t a op v, .step t, .step t]).log = S.log ++ [⟨t, ⟨a, op, v⟩, .ok S.objs.length⟩] ∧
          (S.run [.call t a op v, .step t, .step t]).objs = S.objs ++ [⟨a, op, v⟩] ∧
          (S.run [.call t a op v, .step t, .step t]).pool = ((⟨a, op, v⟩ : Selector).str, S.objs.length) :: S.pool.filter (fun e => e.1 ≠ (⟨a, op, v⟩ : Selector).str) := by
        rw [hrun, e2]
        have h1 : ((S.setPc t (.check ⟨a, op, v⟩)).setPc t (.absent ⟨a, op, v⟩)).pc t = .absent ⟨a, op, v⟩ := by simp [State.setPc]
        simp only [State.event, h1]
        exact ⟨rfl, rfl, rfl⟩
      obtain ⟨f1, f2, f3⟩ := e3
      refine ⟨S.objs.length, f1, by rw [f2]; simp, ?_⟩
      intro k
      unfold State.view
      rw [f2, f3]
      have hself : S.pool.filter (fun e => e.1 ≠ (⟨a, op, v⟩ : Selector).str) = S.pool := by
        apply List.filter_eq_self.2
        intro e he
        simp only [ne_eq, decide_eq_true_eq]
        intro hh
        exact hc ((contains_keys S _).2 (List.mem_map.2 ⟨e, he, hh⟩))
      rw [hself]
      have hmap : S.pool.map (fun e => (e.1, (S.objs ++ [(⟨a, op, v⟩ : Selector)]).getD e.2 ⟨[], .equal, .int 0⟩)) = S.view := by
        unfold State.view
        apply List.map_congr_left
        intro e he
        obtain ⟨s, g1, _⟩ := hinv.pool e he
        rw [List.getD_eq_getElem?_getD, List.getD_eq_getElem?_getD, getElem?_append_some g1, g1]
      rw [List.map_cons, hmap]
      simp
      rfl
  · have hl' : Selector.legal op v = false := by simpa using hl
    simp only [hl', Bool.not_false, if_true]
    have e1 : S.event (.call t a op v) = S.finish t ⟨a, op, v⟩ (.error .valueError) := by simp only [State.event, hpc, hl']; rfl
    have e2 : ∀ st : State, st.pc t = .idle → st.event (.step t) = st := by intro st h; simp only [State.event, h]
    have hid : (S.finish t ⟨a, op, v⟩ (.error .valueError)).pc t = .idle := by simp [State.finish, State.setPc]
    rw [hrun, e1, e2 _ hid, e2 _ hid]
    exact ⟨_, rfl, rfl⟩

/-- C84: a single-threaded program can get `KeyError` from `Selector(...)`: the selector exists, the program has given it up, and it is collected between the look-up of its key and the access. -/
theorem C84_keyError : ((init.run [.call 0 c!"a" .equal (.int 1), .step 0, .step 0, .drop 0,
    .call 0 c!"a" .equal (.int 1), .step 0, .collect 0, .step 0]).log.map (·.result)) = [.ok 0, .error .keyError] := by decide +kernel

/-- C84: two threads that ask for the same selector at the same time can get two different objects (with the same fields); a later call gets the last one. -/
theorem C84_two_objects : ((init.run [.call 0 c!"a" .equal (.int 1), .call 1 c!"a" .equal (.int 1), .step 0, .step 1, .step 0, .step 1,
    .call 0 c!"a" .equal (.int 1), .step 0, .step 0]).log.map (·.result)) = [.ok 0, .ok 1, .ok 1] := by decide +kernel

/-- a case that meets the hypotheses of `C84_window` and `C84_identity` -/
example : (init.run [.call 0 c!"a" .equal (.int 1), .call 1 c!"b" .less (.int 2), .step 1]).pc 0 = .check ⟨c!"a", .equal, .int 1⟩ ∧
    (init.run ([.call 0 c!"a" .equal (.int 1), .step 0] ++ [.step 0])).log =
      (init.run [.call 0 c!"a" .equal (.int 1), .step 0]).log ++ [⟨0, ⟨c!"a", .equal, .int 1⟩, .ok 0⟩] := by decide +kernel

end SelPool

namespace Single
variable {κ : Type} [DecidableEq κ]

theorem lookup_filter {l : List (κ × Nat)} {k k' : κ} (h : k ≠ k') : (l.filter (fun e => decide (e.1 ≠ k'))).lookup k = l.lookup k := by
  induction l with
  | nil => rfl
  | cons e l ih =>
    obtain ⟨a, b⟩ := e
    have ih' : List.lookup k (List.filter (fun e => !decide (e.1 = k')) l) = List.lookup k l := by simpa using ih
    by_cases ha : a = k'
    · have hb : (k == k') = false := by simpa using h
      simp [ha, List.lookup_cons, hb, ih']
    · by_cases hk : k = a
      · have hk' : ¬ k = k' := h
        subst hk
        simp [hk', List.lookup_cons]
      · have : (k == a) = false := by simpa using hk
        simp [ha, List.lookup_cons, this, ih']

theorem lookup_mem {l : List (κ × Nat)} {k : κ} {o : Nat} (h : l.lookup k = some o) : (k, o) ∈ l := by
  induction l with
  | nil => simp at h
  | cons e l ih =>
    obtain ⟨a, b⟩ := e
    by_cases hk : k = a
    · subst hk
      simp at h
      simp [h]
    · have : (k == a) = false := by simpa using hk
      simp only [List.lookup_cons, this] at h
      exact List.mem_cons_of_mem _ (ih h)

/-- what holds in every reachable state -/
structure Inv (home : κ → κ) (st : State κ) : Prop where
  attr : ∀ k o, (k, o) ∈ st.attr → ∃ c, st.objs[o]? = some c ∧ home c = k
  ret : ∀ t c, st.pc t = .ret c → ∃ o, st.attr.lookup (home c) = some o
  log : ∀ x ∈ st.log, ∃ o c, x.2.2 = some o ∧ st.objs[o]? = some c ∧ home c = home x.2.1

theorem run_append (home : κ → κ) (st : State κ) (a b : List (Event κ)) : st.run home (a ++ b) = (st.run home a).run home b := by
  simp [State.run, List.foldl_append]

theorem set_lookup {l : List (κ × Nat)} {k k' : κ} {n : Nat} :
    List.lookup k' ((k, n) :: l.filter (fun e => decide (e.1 ≠ k))) = if k' = k then some n else l.lookup k' := by
  by_cases h : k' = k
  · simp [h]
  · have hb : (k' == k) = false := by simpa using h
    rw [if_neg h, List.lookup_cons, hb]
    exact lookup_filter h

theorem inv_event {home : κ → κ} {st : State κ} (h : Inv home st) (e : Event κ) : Inv home (st.event home e) := by
  obtain ⟨h1, h2, h3⟩ := h
  cases e with
  | call t c =>
    simp only [State.event]
    cases hp : st.pc t <;> simp only
    · refine ⟨h1, ?_, h3⟩
      intro u c' hu
      by_cases hut : u = t
      · simp [State.setPc, hut] at hu
      · simp [State.setPc, hut] at hu; exact h2 u c' hu
    all_goals exact ⟨h1, h2, h3⟩
  | step t =>
    simp only [State.event]
    cases hp : st.pc t with
    | idle => exact ⟨h1, h2, h3⟩
    | check c =>
      simp only
      split
      · refine ⟨h1, ?_, h3⟩
        intro u c' hu
        by_cases hut : u = t
        · simp [State.setPc, hut] at hu
        · simp [State.setPc, hut] at hu; exact h2 u c' hu
      · rename_i hn
        refine ⟨h1, ?_, h3⟩
        intro u c' hu
        by_cases hut : u = t
        · simp [State.setPc, hut] at hu
          subst hu
          show ∃ o, st.attr.lookup (home c) = some o
          cases hl : st.attr.lookup (home c) with
          | none => simp [hl] at hn
          | some o => exact ⟨o, rfl⟩
        · simp [State.setPc, hut] at hu; exact h2 u c' hu
    | create c =>
      simp only
      have grow : ∀ (o : Nat) (c' : κ), st.objs[o]? = some c' → (st.objs ++ [c])[o]? = some c' := by
        intro o c' ho
        rw [List.getElem?_append_left (List.getElem?_eq_some_iff.1 ho).1]
        exact ho
      refine ⟨?_, ?_, ?_⟩
      · intro k o hm
        simp only [State.setPc, List.mem_cons, Prod.mk.injEq, List.mem_filter] at hm
        rcases hm with ⟨e1, e2⟩ | ⟨hm, _⟩
        · exact ⟨c, by simp [State.setPc, e2], e1.symm⟩
        · obtain ⟨c', g1, g2⟩ := h1 k o hm
          exact ⟨c', grow o c' g1, g2⟩
      · intro u c' hu
        show ∃ o, List.lookup (home c') ((home c, st.objs.length) :: st.attr.filter (fun e => decide (e.1 ≠ home c))) = some o
        rw [set_lookup]
        split
        · exact ⟨_, rfl⟩
        · rename_i hne
          by_cases hut : u = t
          · simp [State.setPc, hut] at hu; subst hu; exact absurd rfl hne
          · simp [State.setPc, hut] at hu; exact h2 u c' hu
      · intro x hx
        obtain ⟨o, c', g1, g2, g3⟩ := h3 x hx
        exact ⟨o, c', g1, grow o c' g2, g3⟩
    | ret c =>
      simp only
      refine ⟨h1, ?_, ?_⟩
      · intro u c' hu
        by_cases hut : u = t
        · simp [State.setPc, hut] at hu
        · simp [State.setPc, hut] at hu; exact h2 u c' hu
      · intro x hx
        simp only [State.setPc, List.mem_append, List.mem_singleton] at hx
        rcases hx with hx | rfl
        · exact h3 x hx
        · obtain ⟨o, ho⟩ := h2 t c hp
          obtain ⟨c', g1, g2⟩ := h1 _ _ (lookup_mem ho)
          exact ⟨o, c', ho, g1, g2⟩

theorem inv_init (home : κ → κ) : Inv home (init : State κ) := ⟨by simp [init], by simp [init], by simp [init]⟩

theorem inv_run (home : κ → κ) (es : List (Event κ)) : Inv home (init.run home es) := by
  have : ∀ (es : List (Event κ)) (st : State κ), Inv home st → Inv home (st.run home es) := by
    intro es
    induction es with
    | nil => intro st h; exact h
    | cons e es ih => intro st h; exact ih _ (inv_event h e)
  exact this es _ (inv_init home)

/-- C85: whatever the threads do, a measure's constructor never returns `None`, and what it returns is an object of a class that shares the constructor with the class called. -/
theorem C85_class (home : κ → κ) (es : List (Event κ)) (t : Nat) (c : κ) (r : Option Nat) (h : (t, c, r) ∈ (init.run home es).log) :
    ∃ o c', r = some o ∧ (init.run home es).objs[o]? = some c' ∧ home c' = home c := (inv_run home es).log _ h

/-- C85: for the classes of the library, each with a constructor of its own, the object is of exactly the class called. -/
theorem C85_own_class (es : List (Event κ)) (t : Nat) (c : κ) (r : Option Nat) (h : (t, c, r) ∈ (init.run id es).log) :
    ∃ o, r = some o ∧ (init.run id es).objs[o]? = some c := by
  obtain ⟨o, c', h1, h2, h3⟩ := C85_class id es t c r h
  have : c' = c := h3
  subst this
  exact ⟨o, h1, h2⟩

/-- the attribute is set to `o` and no thread is about to set it -/
def Settled (home : κ → κ) (k : κ) (o : Nat) (st : State κ) : Prop :=
  st.attr.lookup k = some o ∧ ∀ t c, st.pc t = .create c → home c ≠ k

theorem settled_event {home : κ → κ} {k : κ} {o : Nat} {st : State κ} (h : Settled home k o st) (e : Event κ) :
    Settled home k o (st.event home e) ∧ ∃ new, (st.event home e).log = st.log ++ new ∧ ∀ x ∈ new, home x.2.1 = k → x.2.2 = some o := by
  obtain ⟨h1, h2⟩ := h
  cases e with
  | call t c =>
    simp only [State.event]
    cases hp : st.pc t <;> simp only
    · refine ⟨⟨h1, ?_⟩, [], by simp [State.setPc], by simp⟩
      intro u c' hu
      by_cases hut : u = t
      · simp [State.setPc, hut] at hu
      · simp [State.setPc, hut] at hu; exact h2 u c' hu
    all_goals exact ⟨⟨h1, h2⟩, [], by simp, by simp⟩
  | step t =>
    simp only [State.event]
    cases hp : st.pc t with
    | idle => exact ⟨⟨h1, h2⟩, [], by simp, by simp⟩
    | check c =>
      simp only
      split
      · rename_i hn
        refine ⟨⟨h1, ?_⟩, [], by simp [State.setPc], by simp⟩
        intro u c' hu
        by_cases hut : u = t
        · simp [State.setPc, hut] at hu
          subst hu
          intro hk
          rw [hk, h1] at hn
          simp at hn
        · simp [State.setPc, hut] at hu; exact h2 u c' hu
      · refine ⟨⟨h1, ?_⟩, [], by simp [State.setPc], by simp⟩
        intro u c' hu
        by_cases hut : u = t
        · simp [State.setPc, hut] at hu
        · simp [State.setPc, hut] at hu; exact h2 u c' hu
    | create c =>
      simp only
      refine ⟨⟨?_, ?_⟩, [], by simp [State.setPc], by simp⟩
      · show List.lookup k ((home c, st.objs.length) :: st.attr.filter (fun e => decide (e.1 ≠ home c))) = some o
        rw [set_lookup, if_neg (fun hh => h2 t c hp hh.symm)]
        exact h1
      · intro u c' hu
        by_cases hut : u = t
        · simp [State.setPc, hut] at hu
        · simp [State.setPc, hut] at hu; exact h2 u c' hu
    | ret c =>
      simp only
      refine ⟨⟨h1, ?_⟩, [(t, c, st.attr.lookup (home c))], rfl, ?_⟩
      · intro u c' hu
        by_cases hut : u = t
        · simp [State.setPc, hut] at hu
        · simp [State.setPc, hut] at hu; exact h2 u c' hu
      · intro x hx hk
        rw [List.mem_singleton] at hx
        subst hx
        simp only at hk ⊢
        rw [hk, h1]

theorem settled_run {home : κ → κ} {k : κ} {o : Nat} (es : List (Event κ)) : ∀ (st : State κ), Settled home k o st →
    ∃ new, (st.run home es).log = st.log ++ new ∧ ∀ x ∈ new, home x.2.1 = k → x.2.2 = some o := by
  induction es with
  | nil => intro st _; exact ⟨[], by simp [State.run], by simp⟩
  | cons e es ih =>
    intro st h
    obtain ⟨g1, n1, g2, g3⟩ := settled_event h e
    obtain ⟨n2, g4, g5⟩ := ih _ g1
    refine ⟨n1 ++ n2, ?_, ?_⟩
    · show ((st.event home e).run home es).log = _
      rw [g4, g2, List.append_assoc]
    · intro x hx
      rcases List.mem_append.1 hx with hx | hx
      · exact g3 x hx
      · exact g5 x hx

/-- C85: once a call has returned the object `o` and no thread is between its test and its assignment for the same constructor, every later call, by any thread and whatever the schedule, returns this very object. -/
theorem C85_settled (home : κ → κ) (es1 es2 : List (Event κ)) (t o : Nat) (c : κ)
    (h1 : (init.run home (es1 ++ [.step t])).log = (init.run home es1).log ++ [(t, c, some o)])
    (hq : ∀ u c', (init.run home (es1 ++ [.step t])).pc u = .create c' → home c' ≠ home c) :
    ∃ new, (init.run home (es1 ++ [.step t] ++ es2)).log = (init.run home (es1 ++ [.step t])).log ++ new ∧
      ∀ x ∈ new, home x.2.1 = home c → x.2.2 = some o := by
  rw [run_append home init (es1 ++ [Event.step t]) es2]
  apply settled_run
  refine ⟨?_, hq⟩
  rw [run_append] at h1 ⊢
  generalize init.run home es1 = S at h1 ⊢
  show (S.event home (.step t)).attr.lookup (home c) = some o
  change (S.event home (.step t)).log = _ at h1
  simp only [State.event] at h1 ⊢
  cases hp : S.pc t with
  | idle => rw [hp] at h1; simp at h1
  | check s' => rw [hp] at h1; simp only at h1; split at h1 <;> simp [State.setPc] at h1
  | create s' => rw [hp] at h1; simp [State.setPc] at h1
  | ret s' =>
    rw [hp] at h1
    simp only [State.setPc, List.append_cancel_left_eq, List.cons.injEq, Prod.mk.injEq, and_true, true_and] at h1 ⊢
    obtain ⟨e1, e2⟩ := h1
    rw [← e1]; exact e2

/-- as long as no two calls overlap: the attribute holds what has been returned -/
structure Serial (home : κ → κ) (st : State κ) : Prop where
  log : ∀ x ∈ st.log, st.attr.lookup (home x.2.1) = x.2.2
  create : ∀ t c, st.pc t = .create c → st.attr.lookup (home c) = none

theorem serial_event {home : κ → κ} {st : State κ} (hi : Inv home st) (h : Serial home st)
    (hone : ∀ u v, st.pc u ≠ .idle → st.pc v ≠ .idle → u = v) (e : Event κ) : Serial home (st.event home e) := by
  obtain ⟨h1, h2⟩ := h
  cases e with
  | call t c =>
    simp only [State.event]
    cases hp : st.pc t <;> simp only
    · refine ⟨h1, ?_⟩
      intro u c' hu
      by_cases hut : u = t
      · simp [State.setPc, hut] at hu
      · simp [State.setPc, hut] at hu; exact h2 u c' hu
    all_goals exact ⟨h1, h2⟩
  | step t =>
    simp only [State.event]
    cases hp : st.pc t with
    | idle => exact ⟨h1, h2⟩
    | check c =>
      simp only
      split
      · rename_i hn
        refine ⟨h1, ?_⟩
        intro u c' hu
        by_cases hut : u = t
        · simp [State.setPc, hut] at hu
          subst hu
          exact Option.isNone_iff_eq_none.1 hn
        · simp [State.setPc, hut] at hu; exact h2 u c' hu
      · refine ⟨h1, ?_⟩
        intro u c' hu
        by_cases hut : u = t
        · simp [State.setPc, hut] at hu
        · simp [State.setPc, hut] at hu; exact h2 u c' hu
    | create c =>
      simp only
      refine ⟨?_, ?_⟩
      · intro x hx
        show List.lookup (home x.2.1) ((home c, st.objs.length) :: st.attr.filter (fun e => decide (e.1 ≠ home c))) = x.2.2
        rw [set_lookup, if_neg]
        · exact h1 x hx
        · intro hk
          obtain ⟨o, _, g, _⟩ := hi.log x hx
          have := h1 x hx
          rw [hk, h2 t c hp, g] at this
          cases this
      · intro u c' hu
        by_cases hut : u = t
        · simp [State.setPc, hut] at hu
        · simp [State.setPc, hut] at hu
          exact absurd (hone u t (by rw [hu]; simp) (by rw [hp]; simp)) hut
    | ret c =>
      simp only
      refine ⟨?_, ?_⟩
      · intro x hx
        simp only [State.setPc, List.mem_append, List.mem_singleton] at hx
        rcases hx with hx | rfl
        · exact h1 x hx
        · rfl
      · intro u c' hu
        by_cases hut : u = t
        · simp [State.setPc, hut] at hu
        · simp [State.setPc, hut] at hu; exact h2 u c' hu

/-- C85: if calls do not overlap (no two threads are inside a constructor at the same time), all the calls with the same constructor return the same object: the instance is a singleton. -/
theorem C85_serial (home : κ → κ) (es : List (Event κ))
    (hone : ∀ es1, es1 <+: es → ∀ u v, (init.run home es1).pc u ≠ .idle → (init.run home es1).pc v ≠ .idle → u = v)
    (t t' : Nat) (c c' : κ) (r r' : Option Nat) (h : (t, c, r) ∈ (init.run home es).log) (h' : (t', c', r') ∈ (init.run home es).log)
    (hc : home c = home c') : r = r' := by
  have key : ∀ (es2 es1 : List (Event κ)), es1 ++ es2 = es → Serial home (init.run home es1) → Serial home (init.run home es) := by
    intro es2
    induction es2 with
    | nil => intro es1 h hs; rw [← h, List.append_nil]; exact hs
    | cons e es2 ih =>
      intro es1 h hs
      apply ih (es1 ++ [e]) (by rw [← h]; simp)
      rw [run_append]
      exact serial_event (inv_run home es1) hs (hone es1 ⟨e :: es2, h⟩) e
  have hs := key es [] rfl ⟨by simp [init, State.run], by simp [init, State.run]⟩
  have e1 := hs.log _ h
  have e2 := hs.log _ h'
  simp only at e1 e2
  rw [← e1, ← e2, hc]

/-- the thread of an event -/
def Event.thread : Event κ → Nat
  | .call t _ => t
  | .step t => t

theorem others_idle (home : κ → κ) (t : Nat) (es : List (Event κ)) (h : ∀ e ∈ es, e.thread = t) (u : Nat) (hu : u ≠ t) : (init.run home es).pc u = .idle := by
  have : ∀ (es : List (Event κ)) (st : State κ), (∀ e ∈ es, e.thread = t) → st.pc u = .idle → (st.run home es).pc u = .idle := by
    intro es
    induction es with
    | nil => intro st _ h; exact h
    | cons e es ih =>
      intro st h hi
      apply ih _ (fun e he => h e (List.mem_cons_of_mem _ he))
      have ht := h e (List.mem_cons_self ..)
      cases e with
      | call t' c =>
        simp only [Event.thread] at ht
        subst ht
        simp only [State.event]
        cases hp : st.pc t' <;> simp [State.setPc, hu, hi]
      | step t' =>
        simp only [Event.thread] at ht
        subst ht
        simp only [State.event]
        cases hp : st.pc t' <;> simp only [hi] <;> (try split) <;> simp [State.setPc, hu, hi]
  exact this es _ h rfl

/-- C85: in a single-threaded program the instance is a singleton. -/
theorem C85_one_thread (home : κ → κ) (es : List (Event κ)) (t : Nat) (ht : ∀ e ∈ es, e.thread = t) (c c' : κ) (r r' : Option Nat)
    (h : (t, c, r) ∈ (init.run home es).log) (h' : (t, c', r') ∈ (init.run home es).log) (hc : home c = home c') : r = r' := by
  refine C85_serial home es ?_ t t c c' r r' h h' hc
  intro es1 hp u v hu hv
  have hall : ∀ e ∈ es1, e.thread = t := fun e he => ht e (hp.subset he)
  have key : ∀ w, (init.run home es1).pc w ≠ .idle → w = t := fun w hw => by
    by_contra hne
    exact hw (others_idle home t es1 hall w hne)
  rw [key u hu, key v hv]

/-- C85: two threads that call the same class for the first time at the same time can get two different objects. -/
theorem C85_two_objects : ((init : State Bool).run id [.call 0 true, .call 1 true, .step 0, .step 1, .step 0, .step 0, .step 1, .step 1]).log =
    [(0, true, some 0), (1, true, some 1)] := by decide +kernel

/-- C85: a subclass without a constructor of its own shares the instance, and the class of that instance is the class of the first call: here the base class is called after the subclass and returns an object of the subclass. -/
theorem C85_subclass : ((init : State Bool).run (fun _ => true) [.call 0 false, .step 0, .step 0, .step 0, .call 0 true, .step 0, .step 0]).log =
    [(0, false, some 0), (0, true, some 0)] ∧
    ((init : State Bool).run (fun _ => true) [.call 0 false, .step 0, .step 0, .step 0, .call 0 true, .step 0, .step 0]).objs = [false] := by decide +kernel

/-- a case that meets the hypotheses of `C85_settled` and `C85_one_thread` -/
example : ((init : State Bool).run id ([.call 0 true, .step 0, .step 0] ++ [.step 0])).log =
    ((init : State Bool).run id [.call 0 true, .step 0, .step 0]).log ++ [(0, true, some 0)] ∧
    (∀ e ∈ ([.call 0 true, .step 0, .step 0, .step 0, .call 0 true, .step 0, .step 0] : List (Event Bool)), e.thread = 0) := by decide +kernel

end Single
end Verif

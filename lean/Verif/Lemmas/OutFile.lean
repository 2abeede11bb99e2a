import Verif.Model.OutFile
/-! Lemmas on the files written: what is on the disk and what is still in the buffer. -/
namespace Verif
namespace OutFile

theorem overlay_top (D S t : Str) : overlay (D ++ S.drop D.length) D.length t = (D ++ t) ++ S.drop (D ++ t).length := by
  unfold overlay
  have h1 : (D ++ S.drop D.length).take D.length = D := by simp
  have h2 : D.length - (D ++ S.drop D.length).length = 0 := by simp
  have h3 : (D ++ S.drop D.length).drop (D.length + t.length) = S.drop (D ++ t).length := by
    rw [List.drop_append, List.drop_drop]
    have : D.drop (D.length + t.length) = [] := by simp
    rw [this]
    simp
  rw [h1, h2, h3]
  simp

/-- the shape of an open file: `D` has been handed over, `B` is in the buffer, `S` is what was below -/
def shape (S D B : Str) : OutFile := ⟨some (D ++ S.drop D.length), some (D.length, B)⟩

theorem flush_shape (k : Nat) (S D B : Str) : (shape S D B).flush k = shape S (D ++ B.take k) (B.drop k) := by
  unfold flush shape
  simp only
  by_cases h : B.take k = []
  · rw [if_pos h]
    have hB : B.drop k = B := by
      have := List.take_append_drop k B
      rw [h] at this
      simpa using this
    rw [h, hB]
    simp
  · rw [if_neg h, Option.getD_some, overlay_top]
    simp

theorem flushAll_shape (S D B : Str) : (shape S D B).flushAll = shape S (D ++ B) [] := by
  have : (shape S D B).flushAll = (shape S D B).flush B.length := rfl
  rw [this, flush_shape]
  simp

theorem write_shape (k : Nat) (S D B t : Str) : (shape S D B).step k (.write t) = shape S (D ++ (B ++ t).take k) ((B ++ t).drop k) :=
  flush_shape k S D (B ++ t)

theorem close_shape (k : Nat) (S D B : Str) : (shape S D B).step k .close = ⟨some ((D ++ B) ++ S.drop (D ++ B).length), none⟩ := by
  have : (shape S D B).step k .close = ⟨(shape S D B).flushAll.disk, none⟩ := rfl
  rw [this, flushAll_shape]
  rfl

/-- what the file object of an earlier run writes into the file that has just been emptied -/
def stale : Option (Nat × Str) → Str
  | none => []
  | some (p, b) => if b = [] then [] else List.replicate p '\x00' ++ b

theorem open_shape (k : Nat) (o : OutFile) : o.step k .openW = shape (stale o.handle) [] [] := by
  obtain ⟨d, h⟩ := o
  cases h with
  | none => rfl
  | some pb =>
    obtain ⟨p, b⟩ := pb
    show OutFile.mk (flush b.length ⟨some [], some (p, b)⟩).disk (some (0, [])) = _
    unfold flush shape stale
    simp only [List.take_length]
    by_cases hb : b = []
    · simp [hb]
    · rw [if_neg hb, if_neg hb]
      simp [overlay]

end OutFile

open OutFile

/-- some writes -/
theorem SDMapObj.run_append (sched : Nat → Nat) (a b : List SDMapEvent) (i : Nat) (o : SDMapObj) :
    SDMapObj.run sched i o (a ++ b) = SDMapObj.run sched (i + a.length) (SDMapObj.run sched i o a) b := by
  induction a generalizing i o with
  | nil => rfl
  | cons e a ih =>
    simp only [List.cons_append, SDMapObj.run, List.length_cons]
    rw [ih]
    congr 1
    omega

theorem SDMapObj.run_writes (sched : Nat → Nat) (ts : List Str) (i : Nat) (o : SDMapObj) (S D B : Str) (h : o.out = shape S D B) :
    ∃ D' B', D' ++ B' = D ++ B ++ ts.flatten ∧ D <+: D' ∧
      SDMapObj.run sched i o (ts.map (fun t => .file (.write t))) = ⟨o.selected, o.unselected, shape S D' B'⟩ := by
  induction ts generalizing i o D B with
  | nil =>
    refine ⟨D, B, by simp, List.prefix_rfl, ?_⟩
    cases o
    simp only [List.map_nil, SDMapObj.run] at h ⊢
    rw [← h]
  | cons t ts ih =>
    have hs : (o.step (sched i) (.file (.write t))).out = shape S (D ++ (B ++ t).take (sched i)) ((B ++ t).drop (sched i)) := by
      show o.out.step (sched i) (.write t) = _
      rw [h, write_shape]
    obtain ⟨D', B', h1, h2, h3⟩ := ih (i + 1) _ _ _ hs
    refine ⟨D', B', ?_, ?_, ?_⟩
    · rw [h1]
      rw [List.append_assoc D, List.take_append_drop]
      simp
    · exact (List.prefix_append _ _).trans h2
    · simp only [List.map_cons, SDMapObj.run]
      exact h3

theorem OutFile.run_append (sched : Nat → Nat) (a b : List OutFile.Op) (i : Nat) (o : OutFile) :
    OutFile.run sched i o (a ++ b) = OutFile.run sched (i + a.length) (OutFile.run sched i o a) b := by
  induction a generalizing i o with
  | nil => rfl
  | cons e a ih =>
    simp only [List.cons_append, OutFile.run, List.length_cons]
    rw [ih]
    congr 1
    omega

theorem OutFile.run_writes (sched : Nat → Nat) (ts : List Str) (i : Nat) (S D B : Str) :
    ∃ D' B', D' ++ B' = D ++ B ++ ts.flatten ∧ D <+: D' ∧ OutFile.run sched i (shape S D B) (ts.map .write) = shape S D' B' := by
  induction ts generalizing i D B with
  | nil => exact ⟨D, B, by simp, List.prefix_rfl, rfl⟩
  | cons t ts ih =>
    obtain ⟨D', B', h1, h2, h3⟩ := ih (i + 1) (D ++ (B ++ t).take (sched i)) ((B ++ t).drop (sched i))
    refine ⟨D', B', ?_, (List.prefix_append _ _).trans h2, ?_⟩
    · rw [h1]
      rw [List.append_assoc D, List.take_append_drop]
      simp
    · simp only [List.map_cons, OutFile.run, write_shape]
      exact h3

end Verif

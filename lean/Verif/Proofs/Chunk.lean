import Verif.Model.Types

/-!
# Machines that are functions of their input stream

`next` either makes progress, in which case more input behind the buffered one does not matter, or
it suspends silently, in which case it does not matter that it was called.  Then the reports do not
depend on how the input was chunked.
-/

namespace ImapFlow

/-- A machine with an input buffer. -/
structure Feeder (σ α : Type) where
  feed : σ → Bytes → σ
  next : σ → Except Panic (σ × α)
  silent : α → Bool

variable {σ α : Type}

/-- The properties that make chunking irrelevant on the states `I`. -/
structure Feeder.Chunkable (M : Feeder σ α) (I : σ → Prop) : Prop where
  feed_nil : ∀ s, M.feed s [] = s
  feed_append : ∀ s x y, M.feed s (x ++ y) = M.feed (M.feed s x) y
  feed_inv : ∀ s x, I s → I (M.feed s x)
  progress : ∀ s s1 a x, I s → M.next s = .ok (s1, a) → M.silent a = false →
    I s1 ∧ M.next (M.feed s x) = .ok (M.feed s1 x, a)
  suspend : ∀ s s1 a, I s → M.next s = .ok (s1, a) → M.silent a = true →
    I s1 ∧ ∀ x, M.next (M.feed s1 x) = M.next (M.feed s x)

/-- Any interleaving of feeding and calling `next`, with the bytes fed and the non-silent reports. -/
inductive Feeder.Run (M : Feeder σ α) : σ → Bytes → List α → σ → Prop
  | done {s : σ} : Run M s [] [] s
  | feed {s s' : σ} {b t : Bytes} {h : List α} : Run M (M.feed s b) t h s' → Run M s (b ++ t) h s'
  | silent {s s1 s' : σ} {a : α} {t : Bytes} {h : List α} : M.next s = .ok (s1, a) →
      M.silent a = true → Run M s1 t h s' → Run M s t h s'
  | report {s s1 s' : σ} {a : α} {t : Bytes} {h : List α} : M.next s = .ok (s1, a) →
      M.silent a = false → Run M s1 t h s' → Run M s t (a :: h) s'

/-- Calling `next` repeatedly without feeding. -/
inductive Feeder.Steps (M : Feeder σ α) : σ → List α → σ → Prop
  | done {s : σ} : Steps M s [] s
  | step {s s1 s' : σ} {a : α} {h : List α} : M.next s = .ok (s1, a) → M.silent a = false →
      Steps M s1 h s' → Steps M s (a :: h) s'

/-- Equal futures. -/
def Feeder.Same (M : Feeder σ α) (s r : σ) : Prop := ∀ x, M.next (M.feed s x) = M.next (M.feed r x)

theorem Feeder.Run.reference {M : Feeder σ α} {I : σ → Prop} (hM : M.Chunkable I) {s s' r : σ}
    {t : Bytes} {h : List α} (hr : M.Run s t h s') (hs : I s) (hsr : M.Same s r) (y : Bytes) :
    I s' ∧ ∃ r', M.Steps (M.feed r (t ++ y)) h r' ∧ M.Same (M.feed s' y) r' := by
  induction hr generalizing r with
  | @done s =>
    refine ⟨hs, M.feed r y, .done, fun x => ?_⟩
    rw [← hM.feed_append, ← hM.feed_append]
    exact hsr _
  | @feed s s' b t h _ ih =>
    have h1 : M.Same (M.feed s b) (M.feed r b) := fun x => by
      rw [← hM.feed_append, ← hM.feed_append]
      exact hsr _
    obtain ⟨hi, r', hst, hsm⟩ := ih (hM.feed_inv _ _ hs) h1
    refine ⟨hi, r', ?_, hsm⟩
    rw [List.append_assoc, hM.feed_append]
    exact hst
  | @silent s s1 s' a t h hn ha _ ih =>
    obtain ⟨hi, h1⟩ := hM.suspend _ _ _ hs hn ha
    exact ih hi (fun x => (h1 x).trans (hsr x))
  | @report s s1 s' a t h hn ha _ ih =>
    obtain ⟨hi, h1⟩ := hM.progress _ _ _ (t ++ y) hs hn ha
    obtain ⟨hi', r', hst, hsm⟩ := ih (r := s1) hi (fun _ => rfl)
    refine ⟨hi', r', ?_, hsm⟩
    exact .step ((hsr _).symm.trans h1) ha hst

theorem Feeder.Steps.prefix {M : Feeder σ α} {s r1 r2 : σ} {h1 h2 : List α}
    (a : M.Steps s h1 r1) (b : M.Steps s h2 r2) : h1 <+: h2 ∨ h2 <+: h1 := by
  induction a generalizing h2 with
  | done => exact .inl (List.nil_prefix)
  | step hn ha _ ih =>
    cases b with
    | done => exact .inr (List.nil_prefix)
    | step hn' _ hst =>
      rw [hn] at hn'
      cases hn'
      rcases ih hst with h | h
      · exact .inl ((List.cons_prefix_cons).mpr ⟨rfl, h⟩)
      · exact .inr ((List.cons_prefix_cons).mpr ⟨rfl, h⟩)

/-- A drained run is maximal. -/
theorem Feeder.Steps.maximal {M : Feeder σ α} {s r1 r2 : σ} {h1 h2 : List α}
    (a : M.Steps s h1 r1) (b : M.Steps s h2 r2) {s1 : σ} {x : α} (hn : M.next r2 = .ok (s1, x))
    (hx : M.silent x = true) : h1 <+: h2 := by
  induction b generalizing h1 with
  | @done s =>
    cases a with
    | done => exact List.nil_prefix
    | step hn' ha _ =>
      rw [hn] at hn'
      cases hn'
      rw [ha] at hx
      cases hx
  | step hn' _ _ ih =>
    cases a with
    | done => exact List.nil_prefix
    | step hn'' _ hst =>
      rw [hn'] at hn''
      cases hn''
      exact (List.cons_prefix_cons).mpr ⟨rfl, ih hst hn⟩

/-- Two runs over comparable inputs have comparable reports. -/
theorem Feeder.Chunkable.runs_agree {M : Feeder σ α} {I : σ → Prop} (hM : M.Chunkable I)
    {s s1 s2 : σ} {t1 t2 : Bytes} {h1 h2 : List α} (hs : I s) (hr1 : M.Run s t1 h1 s1)
    (hr2 : M.Run s t2 h2 s2) (ht : t1 <+: t2) : h1 <+: h2 ∨ h2 <+: h1 := by
  obtain ⟨y, rfl⟩ := ht
  obtain ⟨-, r1, hst1, -⟩ := hr1.reference hM hs (fun _ => rfl) y
  obtain ⟨-, r2, hst2, -⟩ := hr2.reference hM hs (fun _ => rfl) []
  rw [List.append_nil] at hst2
  exact hst1.prefix hst2

/-- If the second run is drained, it has reported everything the first one has. -/
theorem Feeder.Chunkable.runs_drained {M : Feeder σ α} {I : σ → Prop} (hM : M.Chunkable I)
    {s s1 s2 s2' : σ} {t1 t2 : Bytes} {h1 h2 : List α} {a : α} (hs : I s) (hr1 : M.Run s t1 h1 s1)
    (hr2 : M.Run s t2 h2 s2) (ht : t1 <+: t2) (hd : M.next s2 = .ok (s2', a))
    (ha : M.silent a = true) : h1 <+: h2 := by
  obtain ⟨y, rfl⟩ := ht
  obtain ⟨-, r1, hst1, -⟩ := hr1.reference hM hs (fun _ => rfl) y
  obtain ⟨-, r2, hst2, hsm⟩ := hr2.reference hM hs (fun _ => rfl) []
  rw [List.append_nil] at hst2
  have h1 := hsm []
  rw [hM.feed_nil, hM.feed_nil, hM.feed_nil, hd] at h1
  exact hst1.maximal hst2 h1.symm ha

end ImapFlow

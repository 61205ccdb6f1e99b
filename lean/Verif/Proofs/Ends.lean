import Verif.Spec.Ends

/-!
# Lemmas about what ends a stream, a program or a session
-/

namespace ImapFlow

/-- At most the last item satisfies `p`. -/
def OnlyLast {α : Type} (p : α → Bool) (T : List α) : Prop := ∀ pre x post, T = pre ++ x :: post → p x = true → post = []

theorem OnlyLast.nil {α : Type} {p : α → Bool} : OnlyLast p [] := by
  intro pre x post h; simp at h

theorem OnlyLast.cons {α : Type} {p : α → Bool} {a : α} {T : List α} (ha : p a = false) (h : OnlyLast p T) :
    OnlyLast p (a :: T) := by
  intro pre x post he hx
  cases pre with
  | nil => simp only [List.nil_append, List.cons.injEq] at he; rw [← he.1, ha] at hx; simp at hx
  | cons b pre => simp only [List.cons_append, List.cons.injEq] at he; exact h pre x post he.2 hx

theorem OnlyLast.single {α : Type} {p : α → Bool} (a : α) : OnlyLast p [a] := by
  intro pre x post he hx
  cases pre with
  | nil => simp at he; exact he.2
  | cons b pre => simp at he

theorem OnlyLast.append {α : Type} {p : α → Bool} {A B : List α} (hA : OnlyLast p A) (hB : OnlyLast p B)
    (h : (∃ a ∈ A, p a = true) → B = []) : OnlyLast p (A ++ B) := by
  induction A with
  | nil => simpa using hB
  | cons a A ih =>
    by_cases ha : p a = true
    · have hb := h ⟨a, by simp, ha⟩
      subst hb
      simpa using hA
    · simp only [Bool.not_eq_true] at ha
      refine OnlyLast.cons ha (ih ?_ ?_)
      · intro pre x post he hx
        exact hA (a :: pre) x post (by rw [he]; rfl) hx
      · rintro ⟨x, hx, hp⟩
        exact h ⟨x, by simp [hx], hp⟩

theorem OnlyLast.of_none {α : Type} {p : α → Bool} {T : List α} (h : ∀ a ∈ T, p a = false) : OnlyLast p T := by
  intro pre x post he hx
  rw [h x (by rw [he]; simp)] at hx; simp at hx

theorem OnlyLast.snoc {α : Type} {p : α → Bool} {T : List α} {a : α} (h : ∀ a ∈ T, p a = false) : OnlyLast p (T ++ [a]) := by
  refine OnlyLast.append (OnlyLast.of_none h) (OnlyLast.single a) ?_
  rintro ⟨x, hx, hp⟩
  rw [h x hx] at hp; simp at hp

theorem OnlyLast.map {α β : Type} {p : α → Bool} {q : β → Bool} {f : α → β} (hf : ∀ a, q (f a) = true → p a = true)
    {T : List α} (h : OnlyLast p T) : OnlyLast q (T.map f) := by
  intro pre x post he hx
  obtain ⟨A, B, rfl, h1, h2⟩ := List.map_eq_append_iff.mp he
  obtain ⟨b, B', rfl, h3, h4⟩ := List.map_eq_cons_iff.mp h2
  have := h A b B' rfl (hf b (by rw [h3]; exact hx))
  rw [← h4, this]; rfl

/-! ## Streams -/

section stream

variable {σ ε ev ι : Type}

theorem StreamConf.advance_ends (M : Machine σ ε ev ι) (c : StreamConf σ) :
    OnlyLast StreamItem.ends (StreamConf.advance M c).2 ∧
    ((∃ i ∈ (StreamConf.advance M c).2, i.ends = true) → (StreamConf.advance M c).1.ctl = .dead) := by
  have hp : ∀ c1 items, StreamConf.provideInput M c = .ok (c1, items) → ∀ i ∈ items, i.ends = false := by
    intro c1 items h
    unfold StreamConf.provideInput at h
    split at h
    · simp only [Except.ok.injEq, Prod.mk.injEq] at h; rw [← h.2]; simp
    · split at h
      · simp at h
      · simp only [Except.ok.injEq, Prod.mk.injEq] at h; rw [← h.2]; simp [StreamItem.ends]
  unfold StreamConf.advance
  split
  · exact ⟨OnlyLast.single _, fun _ => rfl⟩
  · rename_i c1 items h1
    have hi := hp _ _ h1
    split
    · exact ⟨OnlyLast.snoc hi, fun _ => rfl⟩
    · have none : ∀ (r : Except (Interrupt ε) ev) (T : List (StreamItem ε ev ι)), (∀ i ∈ T, i.ends = false) →
          ∀ i ∈ items ++ [.poll r] ++ T, i.ends = false := by
        intro r T hT i h
        simp only [List.append_assoc, List.cons_append, List.nil_append, List.mem_append, List.mem_cons] at h
        rcases h with h | h | h
        · exact hi i h
        · rw [h]; rfl
        · exact hT i h
      have none' : ∀ (r : Except (Interrupt ε) ev), ∀ i ∈ items ++ [StreamItem.poll r], i.ends = false := by
        intro r i h
        exact none r [] (by simp) i (by simpa using h)
      have fin : ∀ (x : StreamConf σ × List (StreamItem ε ev ι)), (∀ i ∈ x.2, i.ends = false) →
          OnlyLast StreamItem.ends x.2 ∧ ((∃ i ∈ x.2, i.ends = true) → x.1.ctl = .dead) := by
        intro x h
        refine ⟨OnlyLast.of_none h, ?_⟩
        rintro ⟨i, hi, he⟩
        rw [h i hi] at he; simp at he
      dsimp only
      split
      · exact fin _ (none _ [_] (by simp [StreamItem.ends]))
      · exact fin _ (none _ [_] (by simp [StreamItem.ends]))
      · split <;> split <;> exact fin _ (none' _)

theorem StreamConf.step_ends {M : Machine σ ε ev ι} {c c' : StreamConf σ} {a : StreamAct ι}
    {items : List (StreamItem ε ev ι)} (h : StreamConf.step M c a = some (c', items)) :
    OnlyLast StreamItem.ends items ∧ ((∃ i ∈ items, i.ends = true) → c'.ctl = .dead) := by
  have fin : ∀ (x : StreamConf σ × List (StreamItem ε ev ι)), (∀ i ∈ x.2, i.ends = false) →
      OnlyLast StreamItem.ends x.2 ∧ ((∃ i ∈ x.2, i.ends = true) → x.1.ctl = .dead) := by
    intro x h
    refine ⟨OnlyLast.of_none h, ?_⟩
    rintro ⟨i, hi, he⟩
    rw [h i hi] at he; simp at he
  have adv : ∀ (d : StreamConf σ) (i : StreamItem ε ev ι), i.ends = false →
      OnlyLast StreamItem.ends (i :: (StreamConf.advance M d).2) ∧
      ((∃ j ∈ i :: (StreamConf.advance M d).2, j.ends = true) → (StreamConf.advance M d).1.ctl = .dead) := by
    intro d i hi
    obtain ⟨h1, h2⟩ := StreamConf.advance_ends M d
    refine ⟨OnlyLast.cons hi h1, ?_⟩
    rintro ⟨j, hj, he⟩
    rcases List.mem_cons.mp hj with rfl | hj
    · rw [hi] at he; simp at he
    · exact h2 ⟨j, hj, he⟩
  have key : ∀ (x : StreamConf σ × List (StreamItem ε ev ι)), some x = some (c', items) →
      (OnlyLast StreamItem.ends x.2 ∧ ((∃ i ∈ x.2, i.ends = true) → x.1.ctl = .dead)) →
      OnlyLast StreamItem.ends items ∧ ((∃ i ∈ items, i.ends = true) → c'.ctl = .dead) := by
    intro x hx hr
    simp only [Option.some.injEq] at hx; rw [hx] at hr; exact hr
  cases a with
  | user op =>
    simp only [StreamConf.step] at h
    split at h
    · split at h
      · exact key _ h ⟨OnlyLast.snoc (T := [_]) (by simp [StreamItem.ends]), fun _ => rfl⟩
      · exact key _ h (fin _ (by simp [StreamItem.ends]))
    · simp at h
  | callNext =>
    simp only [StreamConf.step] at h
    split at h
    · exact key _ h (adv _ _ rfl)
    · simp at h
  | callFlush =>
    simp only [StreamConf.step] at h
    split at h
    · split at h
      · exact key _ h (fin _ (by simp [StreamItem.ends]))
      · exact key _ h (fin _ (by simp [StreamItem.ends]))
    · simp at h
  | read bytes =>
    have cr : OnlyLast StreamItem.ends (StreamConf.completeRead M c bytes).2 ∧
        ((∃ i ∈ (StreamConf.completeRead M c bytes).2, i.ends = true) → (StreamConf.completeRead M c bytes).1.ctl = .dead) := by
      unfold StreamConf.completeRead
      dsimp only
      split
      · exact fin _ (by simp [StreamItem.ends])
      · exact adv _ _ rfl
    simp only [StreamConf.step] at h
    split at h
    · exact key _ h cr
    · exact key _ h cr
    · simp at h
  | write n =>
    simp only [StreamConf.step] at h
    split at h
    · split at h
      · refine key _ h ?_
        unfold StreamConf.completeWrite
        dsimp only
        split
        · exact fin _ (by simp [StreamItem.ends])
        · split
          · exact adv _ _ rfl
          · exact fin _ (by simp [StreamItem.ends])
      · refine key _ h ?_
        unfold StreamConf.completeFlush
        dsimp only
        split
        · exact fin _ (by simp [StreamItem.ends])
        · split <;> exact fin _ (by simp [StreamItem.ends])
      · simp at h
    · simp at h
  | fail =>
    simp only [StreamConf.step] at h
    split at h
    all_goals first | (exact key _ h (fin _ (by simp [StreamItem.ends]))) | simp at h
  | drop =>
    simp only [StreamConf.step] at h
    split at h
    all_goals first | (exact key _ h (fin _ (by simp [StreamItem.ends]))) | simp at h

theorem StreamConf.step_dead {M : Machine σ ε ev ι} {c : StreamConf σ} (h : c.ctl = .dead) (a : StreamAct ι) :
    StreamConf.step M c a = none := by
  cases a <;> simp [StreamConf.step, h]

theorem StreamConf.run_dead {M : Machine σ ε ev ι} {c c' : StreamConf σ} (h : c.ctl = .dead) {as : List (StreamAct ι)}
    {T : List (StreamItem ε ev ι)} (hr : StreamConf.run M c as = some (c', T)) : as = [] ∧ T = [] ∧ c' = c := by
  cases as with
  | nil => simp [StreamConf.run] at hr; exact ⟨rfl, hr.2, hr.1.symm⟩
  | cons a as => simp [StreamConf.run, StreamConf.step_dead h] at hr

theorem StreamConf.run_ends {M : Machine σ ε ev ι} {c c' : StreamConf σ} {as : List (StreamAct ι)}
    {T : List (StreamItem ε ev ι)} (h : StreamConf.run M c as = some (c', T)) :
    OnlyLast StreamItem.ends T ∧ ((∃ i ∈ T, i.ends = true) → c'.ctl = .dead) := by
  induction as generalizing c T with
  | nil => simp [StreamConf.run] at h; rw [h.2]; exact ⟨OnlyLast.nil, by simp⟩
  | cons a as ih =>
    simp only [StreamConf.run] at h
    split at h
    · simp at h
    · rename_i c1 items h1
      split at h
      · simp at h
      · rename_i c2 T2 h2
        simp only [Option.some.injEq, Prod.mk.injEq] at h
        obtain ⟨rfl, rfl⟩ := h
        obtain ⟨s1, s2⟩ := StreamConf.step_ends h1
        obtain ⟨r1, r2⟩ := ih h2
        refine ⟨s1.append r1 fun he => (StreamConf.run_dead (s2 he) h2).2.1, ?_⟩
        rintro ⟨i, hi, he⟩
        rcases List.mem_append.mp hi with hi | hi
        · have hd := s2 ⟨i, hi, he⟩
          rw [(StreamConf.run_dead hd h2).2.2]; exact hd
        · exact r2 ⟨i, hi, he⟩

end stream

/-! ## Streams with TLS -/

section full

variable {K σ ε ev ι : Type}

/-- Where an item that ends a stream leaves it. -/
def FullItem.leaves : FullItem ε ev ι → Option FullCtl
  | .stream (.panicked _) => some (.at .dead)
  | .broken => some .broken
  | .hung => some .hung
  | _ => none

theorem FullItem.ends_iff (i : FullItem ε ev ι) : i.ends = true ↔ ∃ k, i.leaves = some k := by
  cases i with
  | stream i => cases i <;> simp [FullItem.ends, FullItem.leaves, StreamItem.ends]
  | refused => simp [FullItem.ends, FullItem.leaves]
  | broken => simp [FullItem.ends, FullItem.leaves]
  | hung => simp [FullItem.ends, FullItem.leaves]

theorem FullItem.leaves_none {i : FullItem ε ev ι} (h : i.ends = false) : i.leaves = none := by
  cases hl : i.leaves with
  | none => rfl
  | some k => rw [(FullItem.ends_iff i).mpr ⟨k, hl⟩] at h; simp at h

/-- What is shown about each step. -/
def FullEnds (x : FullStream K σ × List (FullItem ε ev ι)) : Prop :=
  OnlyLast FullItem.ends x.2 ∧ ∀ i ∈ x.2, ∀ k, i.leaves = some k → x.1.ctl = k

theorem FullEnds.of_none {x : FullStream K σ × List (FullItem ε ev ι)} (h : ∀ i ∈ x.2, i.ends = false) : FullEnds x :=
  ⟨OnlyLast.of_none h, fun i hi k hk => by rw [FullItem.leaves_none (h i hi)] at hk; simp at hk⟩

theorem FullEnds.snoc {c : FullStream K σ} {T : List (FullItem ε ev ι)} {a : FullItem ε ev ι}
    (h : ∀ i ∈ T, i.ends = false) (ha : a.leaves = some c.ctl) : FullEnds (c, T ++ [a]) := by
  refine ⟨OnlyLast.snoc h, fun i hi k hk => ?_⟩
  rcases List.mem_append.mp hi with hi | hi
  · rw [FullItem.leaves_none (h i hi)] at hk; simp at hk
  · rw [List.mem_singleton.mp hi, ha] at hk
    simpa using hk

theorem FullEnds.cons {x : FullStream K σ × List (FullItem ε ev ι)} {i : FullItem ε ev ι} (hi : i.ends = false)
    (h : FullEnds x) : FullEnds (x.1, i :: x.2) := by
  refine ⟨OnlyLast.cons hi h.1, fun j hj k hk => ?_⟩
  rcases List.mem_cons.mp hj with rfl | hj
  · rw [FullItem.leaves_none hi] at hk; simp at hk
  · exact h.2 j hj k hk

theorem FullStream.deliver_ends (M : Machine σ ε ev ι) (c : FullStream K σ) (bytes : Bytes) :
    (∀ x, c.deliver M bytes = .error x → FullEnds x) ∧
    ∀ c1 items, c.deliver M bytes = .ok (c1, items) → ∀ i ∈ items, i.ends = false := by
  unfold FullStream.deliver
  split
  · refine ⟨by simp, ?_⟩
    intro c1 items h
    simp only [Except.ok.injEq, Prod.mk.injEq] at h
    rw [← h.2]; simp
  · split
    · refine ⟨?_, by simp⟩
      intro x h
      simp only [Except.error.injEq] at h
      rw [← h]
      exact FullEnds.snoc (T := []) (by simp) rfl
    · refine ⟨by simp, ?_⟩
      intro c1 items h
      simp only [Except.ok.injEq, Prod.mk.injEq] at h
      rw [← h.2]; simp [FullItem.ends, StreamItem.ends]

theorem FullStream.provideInput_ends (M : Machine σ ε ev ι) (c : FullStream K σ) :
    (∀ x, c.provideInput M = .error x → FullEnds x) ∧
    ∀ c1 items, c.provideInput M = .ok (c1, items) → ∀ i ∈ items, i.ends = false := by
  unfold FullStream.provideInput
  split
  · have hd := FullStream.deliver_ends M c c.readBuffer
    split
    · rename_i x hx
      refine ⟨?_, by simp⟩
      intro y h
      simp only [Except.error.injEq] at h
      rw [← h]; exact hd.1 _ hx
    · rename_i c1 items hx
      refine ⟨by simp, ?_⟩
      intro c2 items2 h
      simp only [Except.ok.injEq, Prod.mk.injEq] at h
      rw [← h.2]; exact hd.2 _ _ hx
  · split
    · refine ⟨?_, by simp⟩
      intro x h
      simp only [Except.error.injEq] at h
      rw [← h]; exact FullEnds.snoc (T := []) (by simp) rfl
    · refine ⟨?_, by simp⟩
      intro x h
      simp only [Except.error.injEq] at h
      rw [← h]; exact FullEnds.snoc (T := []) (by simp) rfl
    · exact FullStream.deliver_ends M _ _

theorem FullStream.advance_ends (M : Machine σ ε ev ι) (c : FullStream K σ) : FullEnds (c.advance M) := by
  obtain ⟨p1, p2⟩ := FullStream.provideInput_ends M c
  unfold FullStream.advance
  split
  · rename_i x hx; exact p1 _ hx
  · rename_i c1 items hx
    have hi := p2 _ _ hx
    split
    · exact FullEnds.snoc hi rfl
    · have none : ∀ (r : Except (Interrupt ε) ev) (T : List (FullItem ε ev ι)), (∀ i ∈ T, i.ends = false) →
          ∀ i ∈ items ++ [.stream (.poll r)] ++ T, i.ends = false := by
        intro r T hT i h
        simp only [List.append_assoc, List.cons_append, List.nil_append, List.mem_append, List.mem_cons] at h
        rcases h with h | h | h
        · exact hi i h
        · rw [h]; rfl
        · exact hT i h
      have none' : ∀ (r : Except (Interrupt ε) ev), ∀ i ∈ items ++ [FullItem.stream (.poll r)], i.ends = false := by
        intro r i h
        exact none r [] (by simp) i (by simpa using h)
      dsimp only
      split
      · exact FullEnds.of_none (none _ [_] (by simp [FullItem.ends, StreamItem.ends]))
      · exact FullEnds.of_none (none _ [_] (by simp [FullItem.ends, StreamItem.ends]))
      · split
        · exact FullEnds.of_none (none _ [_, _] (by simp [FullItem.ends, StreamItem.ends]))
        · split <;> exact FullEnds.of_none (none' _)

theorem FullStream.step_ends {M : Machine σ ε ev ι} {c c' : FullStream K σ} {a : StreamAct ι}
    {items : List (FullItem ε ev ι)} (h : FullStream.step M c a = some (c', items)) : FullEnds (c', items) := by
  have key : ∀ (x : FullStream K σ × List (FullItem ε ev ι)), some x = some (c', items) → FullEnds x →
      FullEnds (c', items) := by
    intro x hx hr
    simp only [Option.some.injEq] at hx; rw [hx] at hr; exact hr
  cases a with
  | user op =>
    simp only [FullStream.step] at h
    split at h
    · split at h
      · exact key _ h (FullEnds.snoc (T := [_]) (by simp [FullItem.ends, StreamItem.ends]) rfl)
      · exact key _ h (FullEnds.of_none (by simp [FullItem.ends, StreamItem.ends]))
    · simp at h
  | callNext =>
    simp only [FullStream.step] at h
    split at h
    · exact key _ h (FullEnds.cons rfl (FullStream.advance_ends M _))
    · simp at h
  | callFlush =>
    simp only [FullStream.step] at h
    split at h
    · refine key _ h ?_
      unfold FullStream.startFlush
      dsimp only
      split <;> exact FullEnds.of_none (by simp [FullItem.ends, StreamItem.ends])
    · simp at h
  | read bytes =>
    have cr : FullEnds (FullStream.completeRead M c bytes) := by
      unfold FullStream.completeRead
      dsimp only
      split
      · exact FullEnds.of_none (by simp [FullItem.ends, StreamItem.ends])
      · exact FullEnds.cons rfl (FullStream.advance_ends M _)
    simp only [FullStream.step] at h
    split at h
    · exact key _ h cr
    · exact key _ h cr
    · simp at h
  | write n =>
    simp only [FullStream.step] at h
    split at h
    · split at h
      · refine key _ h ?_
        unfold FullStream.completeWrite
        dsimp only
        split
        · exact FullEnds.of_none (by simp [FullItem.ends, StreamItem.ends])
        · split
          · exact FullEnds.cons rfl (FullStream.advance_ends M _)
          · exact FullEnds.of_none (by simp [FullItem.ends, StreamItem.ends])
      · refine key _ h ?_
        unfold FullStream.completeFlush
        dsimp only
        split
        · exact FullEnds.of_none (by simp [FullItem.ends, StreamItem.ends])
        · split <;> exact FullEnds.of_none (by simp [FullItem.ends, StreamItem.ends])
      · simp at h
    · simp at h
  | fail =>
    simp only [FullStream.step] at h
    split at h
    all_goals first | (exact key _ h (FullEnds.of_none (by simp [FullItem.ends, StreamItem.ends]))) | simp at h
  | drop =>
    simp only [FullStream.step] at h
    split at h
    all_goals first | (exact key _ h (FullEnds.of_none (by simp [FullItem.ends, StreamItem.ends]))) | simp at h

/-- A stream is dead only if something says so. -/
theorem FullStream.provideInput_says (M : Machine σ ε ev ι) (c : FullStream K σ) :
    (∀ c1 items, c.provideInput M = .error (c1, items) → c1.ctl = .at .dead → ∃ i ∈ items, i.leaves = some (.at .dead)) := by
  have hdel : ∀ (c : FullStream K σ) bytes c1 items, c.deliver M bytes = .error (c1, items) →
      ∃ i ∈ items, i.leaves = some (.at .dead) := by
    intro c bytes c1 items h
    unfold FullStream.deliver at h
    split at h
    · simp at h
    · split at h
      · simp only [Except.error.injEq, Prod.mk.injEq] at h
        rw [← h.2]; exact ⟨_, List.mem_singleton_self _, rfl⟩
      · simp at h
  intro c1 items h hd
  unfold FullStream.provideInput at h
  split at h
  · split at h
    · rename_i x hx
      simp only [Except.error.injEq] at h
      subst h
      exact hdel _ _ _ _ hx
    · simp at h
  · split at h
    · simp only [Except.error.injEq, Prod.mk.injEq] at h
      rw [← h.1] at hd; simp at hd
    · simp only [Except.error.injEq, Prod.mk.injEq] at h
      rw [← h.1] at hd; simp at hd
    · exact hdel _ _ _ _ h

theorem FullStream.advance_says (M : Machine σ ε ev ι) (c : FullStream K σ) (hd : (c.advance M).1.ctl = .at .dead) :
    ∃ i ∈ (c.advance M).2, i.leaves = some (.at .dead) := by
  unfold FullStream.advance at hd ⊢
  split at hd
  · rename_i x hx
    exact FullStream.provideInput_says M c _ _ hx hd
  · rename_i c1 items hx
    dsimp only at hd ⊢
    split at hd
    · exact ⟨_, List.mem_append_right _ (List.mem_singleton_self _), rfl⟩
    · split at hd
      · simp at hd
      · simp at hd
      · split at hd
        · simp at hd
        · split at hd <;> simp at hd

theorem FullStream.step_says {M : Machine σ ε ev ι} {c c' : FullStream K σ} {a : StreamAct ι}
    {items : List (FullItem ε ev ι)} (h : FullStream.step M c a = some (c', items)) (hd : c'.ctl = .at .dead) :
    ∃ i ∈ items, i.leaves = some (.at .dead) := by
  have key : ∀ (x : FullStream K σ × List (FullItem ε ev ι)), some x = some (c', items) →
      (x.1.ctl = .at .dead → ∃ i ∈ x.2, i.leaves = some (.at .dead)) → ∃ i ∈ items, i.leaves = some (.at .dead) := by
    intro x hx hr
    simp only [Option.some.injEq] at hx; rw [hx] at hr; exact hr hd
  have adv : ∀ (d : FullStream K σ) (i : FullItem ε ev ι), (d.advance M).1.ctl = .at .dead →
      ∃ j ∈ i :: (d.advance M).2, j.leaves = some (.at .dead) := by
    intro d i h
    obtain ⟨j, hj, hl⟩ := FullStream.advance_says M d h
    exact ⟨j, List.mem_cons_of_mem _ hj, hl⟩
  cases a with
  | user op =>
    simp only [FullStream.step] at h
    split at h
    · rename_i hi
      split at h
      · exact key _ h fun _ => ⟨_, List.mem_cons_of_mem _ (List.mem_singleton_self _), rfl⟩
      · exact key _ h (by simp [hi])
    · simp at h
  | callNext =>
    simp only [FullStream.step] at h
    split at h
    · exact key _ h (adv _ _)
    · simp at h
  | callFlush =>
    simp only [FullStream.step] at h
    split at h
    · rename_i hi
      refine key _ h ?_
      have hc : (c.handleOutput []).1.ctl = .at .idle := by
        unfold FullStream.handleOutput
        split
        · exact hi
        · split <;> exact hi
      unfold FullStream.startFlush
      dsimp only
      split <;> simp [hc]
    · simp at h
  | read bytes =>
    have cr : (FullStream.completeRead M c bytes).1.ctl = .at .dead →
        ∃ i ∈ (FullStream.completeRead M c bytes).2, i.leaves = some (.at .dead) := by
      unfold FullStream.completeRead
      dsimp only
      split
      · simp
      · exact adv _ _
    simp only [FullStream.step] at h
    split at h
    · exact key _ h cr
    · exact key _ h cr
    · simp at h
  | write n =>
    simp only [FullStream.step] at h
    split at h
    · split at h
      · rename_i hc
        refine key _ h ?_
        unfold FullStream.completeWrite
        dsimp only
        split
        · simp
        · split
          · exact adv _ _
          · simp [hc]
      · rename_i hc
        refine key _ h ?_
        unfold FullStream.completeFlush
        dsimp only
        split
        · simp
        · split <;> simp [hc]
      · simp at h
    · simp at h
  | fail =>
    simp only [FullStream.step] at h
    split at h
    all_goals first | (exact key _ h (by simp)) | simp at h
  | drop =>
    simp only [FullStream.step] at h
    split at h
    all_goals first | (exact key _ h (by simp)) | simp at h

/-- Nothing can be done with the stream anymore. -/
def FullStream.IsOver (c : FullStream K σ) : Prop := c.ctl = .at .dead ∨ c.ctl = .hung ∨ c.ctl = .broken

theorem FullItem.leaves_over {i : FullItem ε ev ι} {c : FullStream K σ} (h : i.leaves = some c.ctl) : c.IsOver := by
  unfold FullItem.leaves at h
  split at h
  · simp only [Option.some.injEq] at h; exact .inl h.symm
  · simp only [Option.some.injEq] at h; exact .inr (.inr h.symm)
  · simp only [Option.some.injEq] at h; exact .inr (.inl h.symm)
  · simp at h

theorem FullStream.step_over {M : Machine σ ε ev ι} {c : FullStream K σ} (h : c.IsOver) (a : StreamAct ι) :
    FullStream.step M c a = none := by
  rcases h with h | h | h <;> cases a <;> simp [FullStream.step, h]

theorem FullStream.run_over {M : Machine σ ε ev ι} {c c' : FullStream K σ} (h : c.IsOver) {as : List (StreamAct ι)}
    {T : List (FullItem ε ev ι)} (hr : FullStream.run M c as = some (c', T)) : as = [] ∧ T = [] ∧ c' = c := by
  cases as with
  | nil => simp [FullStream.run] at hr; exact ⟨rfl, hr.2, hr.1.symm⟩
  | cons a as => simp [FullStream.run, FullStream.step_over h] at hr

theorem FullStream.run_ends {M : Machine σ ε ev ι} {c c' : FullStream K σ} {as : List (StreamAct ι)}
    {T : List (FullItem ε ev ι)} (h : FullStream.run M c as = some (c', T)) : FullEnds (c', T) := by
  induction as generalizing c T with
  | nil => simp [FullStream.run] at h; rw [h.2]; exact FullEnds.of_none (by simp)
  | cons a as ih =>
    simp only [FullStream.run] at h
    split at h
    · simp at h
    · rename_i c1 items h1
      split at h
      · simp at h
      · rename_i c2 T2 h2
        simp only [Option.some.injEq, Prod.mk.injEq] at h
        obtain ⟨rfl, rfl⟩ := h
        obtain ⟨s1, s2⟩ := FullStream.step_ends h1
        obtain ⟨r1, r2⟩ := ih h2
        have over : ∀ i ∈ items, ∀ k, i.leaves = some k → c1.IsOver ∧ c1.ctl = k := by
          intro i hi k hk
          have := s2 i hi k hk
          exact ⟨FullItem.leaves_over (i := i) (by rw [hk, ← this]), this⟩
        refine ⟨s1.append r1 ?_, ?_⟩
        · rintro ⟨i, hi, he⟩
          obtain ⟨k, hk⟩ := (FullItem.ends_iff i).mp he
          exact (FullStream.run_over (over i hi k hk).1 h2).2.1
        · intro i hi k hk
          rcases List.mem_append.mp hi with hi | hi
          · obtain ⟨o1, o2⟩ := over i hi k hk
            show c2.ctl = k
            rw [(FullStream.run_over o1 h2).2.2]; exact o2
          · exact r2 i hi k hk

theorem FullStream.dropFuture_ends (c : FullStream K σ) :
    ∀ i ∈ (c.dropFuture (ε := ε) (ev := ev) (ι := ι)).2, i.ends = false := by
  unfold FullStream.dropFuture
  split <;> simp [FullItem.ends, StreamItem.ends]

theorem FullStream.run_says {M : Machine σ ε ev ι} {c c' : FullStream K σ} {as : List (StreamAct ι)}
    {T : List (FullItem ε ev ι)} (h : FullStream.run M c as = some (c', T)) (hc : c.ctl ≠ .at .dead)
    (hd : c'.ctl = .at .dead) : ∃ i ∈ T, i.leaves = some (.at .dead) := by
  induction as generalizing c T with
  | nil => simp [FullStream.run] at h; rw [h.1] at hc; exact absurd hd hc
  | cons a as ih =>
    simp only [FullStream.run] at h
    split at h
    · simp at h
    · rename_i x1 items h1
      split at h
      · simp at h
      · rename_i x2 T2 h2
        simp only [Option.some.injEq, Prod.mk.injEq] at h
        obtain ⟨rfl, rfl⟩ := h
        by_cases hx1 : x1.ctl = .at .dead
        · obtain ⟨i, hi, he⟩ := FullStream.step_says h1 hx1
          exact ⟨i, List.mem_append_left _ hi, he⟩
        · obtain ⟨i, hi, he⟩ := ih h2 hx1
          exact ⟨i, List.mem_append_right _ hi, he⟩

end full

/-! ## Programs -/

section program

variable {K σ S ε ev ι : Type}

/-- What is shown about each step of a program. -/
def ProgramEnds (x : Running K σ S × List (ProgramItem ε ev ι)) : Prop :=
  OnlyLast ProgramItem.ends x.2 ∧ ((∃ i ∈ x.2, i.ends = true) → x.1 = .dead)

theorem ProgramEnds.of_none {x : Running K σ S × List (ProgramItem ε ev ι)} (h : ∀ i ∈ x.2, i.ends = false) :
    ProgramEnds x := by
  refine ⟨OnlyLast.of_none h, ?_⟩
  rintro ⟨i, hi, he⟩
  rw [h i hi] at he; simp at he

theorem ProgramItem.ends_stream {i : FullItem ε ev ι} (h : (ProgramItem.stream i).ends = true) :
    i.leaves = some (.at .dead) := by
  cases i with
  | stream i => cases i <;> simp_all [ProgramItem.ends, StreamItem.ends, FullItem.leaves]
  | refused => simp [ProgramItem.ends] at h
  | broken => simp [ProgramItem.ends] at h
  | hung => simp [ProgramItem.ends] at h

theorem ProgramItem.ends_calls (calls : List ι) :
    ∀ i ∈ calls.map fun op => (ProgramItem.stream (.stream (.user op)) : ProgramItem ε ev ι), i.ends = false := by
  intro i hi
  obtain ⟨op, _, rfl⟩ := List.mem_map.mp hi
  rfl

theorem Program.resume_ends (P : Program σ S ev ι) (vars : σ) (stream : FullStream K S) (coin : Bool)
    (r : Except (StreamError ε) ev) : ProgramEnds (P.resume vars stream coin r) := by
  unfold Program.resume
  split
  · exact ⟨OnlyLast.single _, fun _ => rfl⟩
  · split
    · exact ⟨OnlyLast.single _, fun _ => rfl⟩
    · exact ProgramEnds.of_none (ProgramItem.ends_calls _)
    · exact ProgramEnds.of_none (ProgramItem.ends_calls _)

theorem Program.step_ends {P : Program σ S ev ι} {M : Machine S ε ev ι} {x x' : Running K σ S} {a : ProgramAct}
    {items : List (ProgramItem ε ev ι)} (h : P.step M x a = some (x', items)) : ProgramEnds (x', items) := by
  unfold Program.step at h
  split at h
  · split at h
    · simp at h
    · rename_i stream its hs
      obtain ⟨s1, s2⟩ := FullStream.step_ends hs
      have hm : OnlyLast ProgramItem.ends (its.map ProgramItem.stream) :=
        s1.map fun i hi => (FullItem.ends_iff i).mpr ⟨_, ProgramItem.ends_stream hi⟩
      dsimp only at h
      split at h
      · simp only [Option.some.injEq, Prod.mk.injEq] at h
        obtain ⟨rfl, rfl⟩ := h
        exact ⟨hm, fun _ => rfl⟩
      · rename_i hd
        have hn : ∀ i ∈ its.map ProgramItem.stream, i.ends = false := by
          intro i hi
          obtain ⟨j, hj, rfl⟩ := List.mem_map.mp hi
          cases he : (ProgramItem.stream j).ends with
          | false => rfl
          | true => exact absurd (s2 j hj _ (ProgramItem.ends_stream he)) hd
        split at h
        · simp only [Option.some.injEq, Prod.mk.injEq] at h
          obtain ⟨rfl, rfl⟩ := h
          exact ProgramEnds.of_none hn
        · rename_i vars _ _ coin _ _ result _
          obtain ⟨r1, r2⟩ := Program.resume_ends P vars stream coin result
          simp only [Option.some.injEq, Prod.mk.injEq] at h
          obtain ⟨rfl, rfl⟩ := h
          refine ⟨(OnlyLast.of_none hn).append r1 ?_, ?_⟩
          · rintro ⟨i, hi, he⟩
            rw [hn i hi] at he; simp at he
          · rintro ⟨i, hi, he⟩
            rcases List.mem_append.mp hi with hi | hi
            · rw [hn i hi] at he; simp at he
            · exact r2 ⟨i, hi, he⟩
  · rename_i vars stream text
    have hd : ∀ i ∈ (stream.dropFuture (ε := ε) (ev := ev) (ι := ι)).2.map ProgramItem.stream, i.ends = false := by
      intro i hi
      obtain ⟨j, hj, rfl⟩ := List.mem_map.mp hi
      cases he : (ProgramItem.stream j).ends with
      | false => rfl
      | true =>
        have h1 := FullStream.dropFuture_ends stream j hj
        rw [(FullItem.ends_iff j).mpr ⟨_, ProgramItem.ends_stream he⟩] at h1; simp at h1
    dsimp only at h
    split at h
    · simp at h
    · simp only [Option.some.injEq, Prod.mk.injEq] at h
      obtain ⟨rfl, rfl⟩ := h
      refine ⟨?_, fun _ => rfl⟩
      have e : ∀ (A : List (ProgramItem ε ev ι)) (a b : ProgramItem ε ev ι), A ++ [a, b] = (A ++ [a]) ++ [b] := by simp
      rw [e]
      refine OnlyLast.snoc ?_
      intro i hi
      rcases List.mem_append.mp hi with hi | hi
      · exact hd i hi
      · rw [List.mem_singleton.mp hi]; rfl
    · simp only [Option.some.injEq, Prod.mk.injEq] at h
      obtain ⟨rfl, rfl⟩ := h
      refine ProgramEnds.of_none ?_
      intro i hi
      rcases List.mem_append.mp hi with hi | hi
      · exact hd i hi
      · rcases List.mem_cons.mp hi with rfl | hi
        · rfl
        · exact ProgramItem.ends_calls _ i hi
  · simp at h

theorem Program.step_over {P : Program σ S ev ι} {M : Machine S ε ev ι} {x : Running K σ S} (h : x = .dead ∨ x = .over)
    (a : ProgramAct) : P.step M x a = none := by
  rcases h with rfl | rfl <;> cases a <;> rfl

theorem Program.run_over {P : Program σ S ev ι} {M : Machine S ε ev ι} {x x' : Running K σ S} (h : x = .dead ∨ x = .over)
    {as : List ProgramAct} {T : List (ProgramItem ε ev ι)} (hr : P.run M x as = some (x', T)) : as = [] ∧ T = [] ∧ x' = x := by
  cases as with
  | nil => simp [Program.run] at hr; exact ⟨rfl, hr.2, hr.1.symm⟩
  | cons a as => simp [Program.run, Program.step_over h] at hr

theorem Program.run_ends {P : Program σ S ev ι} {M : Machine S ε ev ι} {x x' : Running K σ S} {as : List ProgramAct}
    {T : List (ProgramItem ε ev ι)} (h : P.run M x as = some (x', T)) : ProgramEnds (x', T) := by
  induction as generalizing x T with
  | nil => simp [Program.run] at h; rw [h.2]; exact ProgramEnds.of_none (by simp)
  | cons a as ih =>
    simp only [Program.run] at h
    split at h
    · simp at h
    · rename_i x1 items h1
      split at h
      · simp at h
      · rename_i x2 T2 h2
        simp only [Option.some.injEq, Prod.mk.injEq] at h
        obtain ⟨rfl, rfl⟩ := h
        obtain ⟨s1, s2⟩ := Program.step_ends h1
        obtain ⟨r1, r2⟩ := ih h2
        refine ⟨s1.append r1 fun he => (Program.run_over (.inl (s2 he)) h2).2.1, ?_⟩
        rintro ⟨i, hi, he⟩
        rcases List.mem_append.mp hi with hi | hi
        · have hd : x1 = .dead := s2 ⟨i, hi, he⟩
          show x2 = .dead
          rw [(Program.run_over (.inl hd) h2).2.2]; exact hd
        · exact r2 ⟨i, hi, he⟩

/-- A program has panicked only if something says so. -/
theorem Program.step_says {P : Program σ S ev ι} {M : Machine S ε ev ι} {x : Running K σ S} {a : ProgramAct}
    {items : List (ProgramItem ε ev ι)} (h : P.step M x a = some (.dead, items))
    (hs : ∀ c c' : FullStream K S, ∀ (b : StreamAct ι) (its : List (FullItem ε ev ι)), c.step M b = some (c', its) →
      c'.ctl = .at .dead → ∃ i ∈ its, i.leaves = some (.at .dead)) : ∃ i ∈ items, i.ends = true := by
  have up : ∀ i : FullItem ε ev ι, i.leaves = some (.at .dead) → (ProgramItem.stream i).ends = true := by
    intro i hi
    unfold FullItem.leaves at hi
    split at hi
    · rfl
    all_goals simp at hi
  unfold Program.step at h
  split at h
  · split at h
    · simp at h
    · rename_i stream its h1
      dsimp only at h
      split at h
      · rename_i hd
        simp only [Option.some.injEq, Prod.mk.injEq, true_and] at h
        subst h
        obtain ⟨i, hi, hl⟩ := hs _ _ _ _ h1 hd
        exact ⟨_, List.mem_map_of_mem hi, up i hl⟩
      · split at h
        · simp at h
        · rename_i vars _ _ coin _ _ result _
          simp only [Option.some.injEq, Prod.mk.injEq] at h
          obtain ⟨h2, rfl⟩ := h
          unfold Program.resume at h2 ⊢
          split at h2
          · exact ⟨_, List.mem_append_right _ (List.mem_singleton_self _), rfl⟩
          · split at h2
            · exact ⟨_, List.mem_append_right _ (List.mem_singleton_self _), rfl⟩
            · simp at h2
            · simp at h2
  · dsimp only at h
    split at h
    · simp at h
    · simp only [Option.some.injEq, Prod.mk.injEq, true_and] at h
      subst h
      exact ⟨_, List.mem_append_right _ (List.mem_cons_of_mem _ (List.mem_singleton_self _)), rfl⟩
    · simp at h
  · simp at h

theorem Program.run_says {P : Program σ S ev ι} {M : Machine S ε ev ι} {x : Running K σ S} {as : List ProgramAct}
    {T : List (ProgramItem ε ev ι)} (h : P.run M x as = some (.dead, T)) (hx : x ≠ .dead) : ∃ i ∈ T, i.ends = true := by
  induction as generalizing x T with
  | nil => simp [Program.run] at h; exact absurd h.1 hx
  | cons a as ih =>
    simp only [Program.run] at h
    split at h
    · simp at h
    · rename_i x1 items h1
      split at h
      · simp at h
      · rename_i x2 T2 h2
        simp only [Option.some.injEq, Prod.mk.injEq] at h
        obtain ⟨rfl, rfl⟩ := h
        by_cases hx1 : x1 = .dead
        · subst hx1
          obtain ⟨i, hi, he⟩ := Program.step_says h1 fun _ _ _ _ => FullStream.step_says
          exact ⟨i, List.mem_append_left _ hi, he⟩
        · obtain ⟨i, hi, he⟩ := ih h2 hx1
          exact ⟨i, List.mem_append_right _ hi, he⟩

end program

/-! ## `client_std.rs` -/

/-- What is shown about each step of `client_std.rs`. -/
def StdEnds (x : StdClient × List StdItem) : Prop :=
  OnlyLast StdItem.ends x.2 ∧ ((∃ i ∈ x.2, i.ends = true) → x.1.ctl = .dead)

theorem StdEnds.of_none {x : StdClient × List StdItem} (h : ∀ i ∈ x.2, i.ends = false) : StdEnds x := by
  refine ⟨OnlyLast.of_none h, ?_⟩
  rintro ⟨i, hi, he⟩
  rw [h i hi] at he; simp at he

theorem StdClient.resume_ends (login : Bytes) (x : StdClient) (r : Except (Interrupt ClientError) ClientEvent) :
    StdEnds (x.resume login r) := by
  unfold StdClient.resume
  split
  · exact StdEnds.of_none (by simp [StdItem.ends])
  · split
    · exact ⟨OnlyLast.single _, fun _ => rfl⟩
    · exact StdEnds.of_none (by simp [StdItem.ends])
  · exact ⟨OnlyLast.single _, fun _ => rfl⟩
  · split
    · exact ⟨OnlyLast.snoc (T := [_]) (by simp [StdItem.ends]), fun _ => rfl⟩
    · refine StdEnds.of_none ?_
      intro i hi
      rcases List.mem_cons.mp hi with rfl | hi
      · rfl
      · obtain ⟨op, _, rfl⟩ := List.mem_map.mp hi
        rfl

theorem StdClient.step_ends {L : Lib} {login : Bytes} {x x' : StdClient} {a : StdAct} {items : List StdItem}
    (h : x.step L login a = some (x', items)) : StdEnds (x', items) := by
  have key : ∀ (y : StdClient × List StdItem), some y = some (x', items) → StdEnds y → StdEnds (x', items) := by
    intro y hy hr
    simp only [Option.some.injEq] at hy; rw [hy] at hr; exact hr
  unfold StdClient.step at h
  split at h
  · split at h
    · exact key _ h ⟨OnlyLast.single _, fun _ => rfl⟩
    · exact key _ h (StdClient.resume_ends _ _ _)
  · split at h
    · split at h
      · exact key _ h ⟨OnlyLast.snoc (T := [_]) (by simp [StdItem.ends]), fun _ => rfl⟩
      · exact key _ h (StdEnds.of_none (by simp [StdItem.ends]))
    · simp at h
  · exact key _ h ⟨OnlyLast.single _, fun _ => rfl⟩
  · exact key _ h (StdEnds.of_none (by simp [StdItem.ends]))
  · exact key _ h ⟨OnlyLast.snoc (T := [_]) (by simp [StdItem.ends]), fun _ => rfl⟩
  · simp at h

theorem StdClient.run_dead {L : Lib} {login : Bytes} {x x' : StdClient} (h : x.ctl = .dead) {as : List StdAct}
    {T : List StdItem} (hr : x.run L login as = some (x', T)) : as = [] ∧ T = [] ∧ x' = x := by
  cases as with
  | nil => simp [StdClient.run] at hr; exact ⟨rfl, hr.2, hr.1.symm⟩
  | cons a as => cases a <;> simp [StdClient.run, StdClient.step, h] at hr

theorem StdClient.run_ends {L : Lib} {login : Bytes} {x x' : StdClient} {as : List StdAct} {T : List StdItem}
    (h : x.run L login as = some (x', T)) : StdEnds (x', T) := by
  induction as generalizing x T with
  | nil => simp [StdClient.run] at h; rw [h.2]; exact StdEnds.of_none (by simp)
  | cons a as ih =>
    simp only [StdClient.run] at h
    split at h
    · simp at h
    · rename_i x1 items h1
      split at h
      · simp at h
      · rename_i x2 T2 h2
        simp only [Option.some.injEq, Prod.mk.injEq] at h
        obtain ⟨rfl, rfl⟩ := h
        obtain ⟨s1, s2⟩ := StdClient.step_ends h1
        obtain ⟨r1, r2⟩ := ih h2
        refine ⟨s1.append r1 fun he => (StdClient.run_dead (s2 he) h2).2.1, ?_⟩
        rintro ⟨i, hi, he⟩
        rcases List.mem_append.mp hi with hi | hi
        · have hd : x1.ctl = .dead := s2 ⟨i, hi, he⟩
          show x2.ctl = .dead
          rw [(StdClient.run_dead hd h2).2.2]; exact hd
        · exact r2 ⟨i, hi, he⟩

/-- It has panicked only if something says so. -/
theorem StdClient.resume_dead (login : Bytes) (x : StdClient) (r : Except (Interrupt ClientError) ClientEvent)
    (h : (x.resume login r).1.ctl = .dead) : ∃ i ∈ (x.resume login r).2, i.ends = true := by
  unfold StdClient.resume at h ⊢
  split at h
  · simp at h
  · split at h
    · exact ⟨_, List.mem_singleton_self _, rfl⟩
    · simp at h
  · exact ⟨_, List.mem_singleton_self _, rfl⟩
  · split at h
    · exact ⟨_, List.mem_cons_of_mem _ (List.mem_singleton_self _), rfl⟩
    · simp at h

theorem StdClient.step_says {L : Lib} {login : Bytes} {x x' : StdClient} {a : StdAct} {items : List StdItem}
    (h : x.step L login a = some (x', items)) (hd : x'.ctl = .dead) : ∃ i ∈ items, i.ends = true := by
  have key : ∀ (y : StdClient × List StdItem), some y = some (x', items) → (y.1.ctl = .dead → ∃ i ∈ y.2, i.ends = true) →
      ∃ i ∈ items, i.ends = true := by
    intro y hy hr
    simp only [Option.some.injEq] at hy; rw [hy] at hr; exact hr hd
  unfold StdClient.step at h
  split at h
  · split at h
    · exact key _ h fun _ => ⟨_, List.mem_singleton_self _, rfl⟩
    · exact key _ h (StdClient.resume_dead _ _ _)
  · split at h
    · split at h
      · exact key _ h fun _ => ⟨_, List.mem_cons_of_mem _ (List.mem_singleton_self _), rfl⟩
      · exact key _ h (by simp)
    · simp at h
  · exact key _ h fun _ => ⟨_, List.mem_singleton_self _, rfl⟩
  · exact key _ h (by simp)
  · exact key _ h fun _ => ⟨_, List.mem_cons_of_mem _ (List.mem_singleton_self _), rfl⟩
  · simp at h

theorem StdClient.run_says {L : Lib} {login : Bytes} {x x' : StdClient} {as : List StdAct} {T : List StdItem}
    (h : x.run L login as = some (x', T)) (hx : x.ctl ≠ .dead) (hd : x'.ctl = .dead) : ∃ i ∈ T, i.ends = true := by
  induction as generalizing x T with
  | nil => simp [StdClient.run] at h; rw [h.1] at hx; exact absurd hd hx
  | cons a as ih =>
    simp only [StdClient.run] at h
    split at h
    · simp at h
    · rename_i x1 items h1
      split at h
      · simp at h
      · rename_i x2 T2 h2
        simp only [Option.some.injEq, Prod.mk.injEq] at h
        obtain ⟨rfl, rfl⟩ := h
        by_cases hx1 : x1.ctl = .dead
        · obtain ⟨i, hi, he⟩ := StdClient.step_says h1 hx1
          exact ⟨i, List.mem_append_left _ hi, he⟩
        · obtain ⟨i, hi, he⟩ := ih h2 hx1
          exact ⟨i, List.mem_append_right _ hi, he⟩

/-! ## Sessions -/

section proxy

variable {K : Type}

/-- Where an item that ends a session leaves it. -/
def ProxyItem.leaves : ProxyItem → Option Bool
  | .client (.panicked _) | .server (.panicked _) | .panicked _ => some true
  | .clientTls .hung | .serverTls .hung => some false
  | _ => none

/-- `true`: it panicked; `false`: it hangs. -/
def Proxy.IsLeft (p : Proxy K) : Bool → Prop
  | true => p = .dead
  | false => p = .hung

theorem ProxyItem.ends_iff (i : ProxyItem) : i.ends = true ↔ ∃ k, i.leaves = some k := by
  cases i with
  | client i => cases i <;> simp [ProxyItem.ends, ProxyItem.leaves, StreamItem.ends]
  | server i => cases i <;> simp [ProxyItem.ends, ProxyItem.leaves, StreamItem.ends]
  | clientTls i => cases i <;> simp [ProxyItem.ends, ProxyItem.leaves]
  | serverTls i => cases i <;> simp [ProxyItem.ends, ProxyItem.leaves]
  | panicked p => simp [ProxyItem.ends, ProxyItem.leaves]

theorem ProxyItem.leaves_none {i : ProxyItem} (h : i.ends = false) : i.leaves = none := by
  cases hl : i.leaves with
  | none => rfl
  | some k => rw [(ProxyItem.ends_iff i).mpr ⟨k, hl⟩] at h; simp at h

/-- What is shown about each step of a session. -/
def ProxyEnds (x : Proxy K × List ProxyItem) : Prop :=
  OnlyLast ProxyItem.ends x.2 ∧ ∀ i ∈ x.2, ∀ k, i.leaves = some k → x.1.IsLeft k

theorem ProxyEnds.of_none {x : Proxy K × List ProxyItem} (h : ∀ i ∈ x.2, i.ends = false) : ProxyEnds x :=
  ⟨OnlyLast.of_none h, fun i hi k hk => by rw [ProxyItem.leaves_none (h i hi)] at hk; simp at hk⟩

theorem ProxyEnds.snoc {T : List ProxyItem} {p : Panic} (h : ∀ i ∈ T, i.ends = false) :
    ProxyEnds ((.dead : Proxy K), T ++ [.panicked p]) := by
  refine ⟨OnlyLast.snoc h, fun i hi k hk => ?_⟩
  rcases List.mem_append.mp hi with hi | hi
  · rw [ProxyItem.leaves_none (h i hi)] at hk; simp at hk
  · rw [List.mem_singleton.mp hi] at hk
    simp only [ProxyItem.leaves, Option.some.injEq] at hk
    rw [← hk]; rfl

theorem ProxyEnds.append {x : Proxy K × List ProxyItem} {A : List ProxyItem} (hA : ∀ i ∈ A, i.ends = false)
    (h : ProxyEnds x) : ProxyEnds (x.1, A ++ x.2) := by
  refine ⟨(OnlyLast.of_none hA).append h.1 ?_, fun i hi k hk => ?_⟩
  · rintro ⟨i, hi, he⟩
    rw [hA i hi] at he; simp at he
  · rcases List.mem_append.mp hi with hi | hi
    · rw [ProxyItem.leaves_none (hA i hi)] at hk; simp at hk
    · exact h.2 i hi k hk

theorem ProxyItem.ofClient_leaves (i : FullItem ServerError ServerEvent ServerOp) :
    (ProxyItem.ofClient i).leaves = some true ∧ i.leaves = some (.at .dead) ∨
    (ProxyItem.ofClient i).leaves = some false ∧ i.leaves = some .hung ∨
    (ProxyItem.ofClient i).leaves = none := by
  cases i with
  | stream i => cases i <;> simp [ProxyItem.ofClient, ProxyItem.leaves, FullItem.leaves]
  | refused => simp [ProxyItem.ofClient, ProxyItem.leaves]
  | broken => simp [ProxyItem.ofClient, ProxyItem.leaves]
  | hung => simp [ProxyItem.ofClient, ProxyItem.leaves, FullItem.leaves]

theorem ProxyItem.ofServer_leaves (i : FullItem ClientError ClientEvent ClientOp) :
    (ProxyItem.ofServer i).leaves = some true ∧ i.leaves = some (.at .dead) ∨
    (ProxyItem.ofServer i).leaves = some false ∧ i.leaves = some .hung ∨
    (ProxyItem.ofServer i).leaves = none := by
  cases i with
  | stream i => cases i <;> simp [ProxyItem.ofServer, ProxyItem.leaves, FullItem.leaves]
  | refused => simp [ProxyItem.ofServer, ProxyItem.leaves]
  | broken => simp [ProxyItem.ofServer, ProxyItem.leaves]
  | hung => simp [ProxyItem.ofServer, ProxyItem.leaves, FullItem.leaves]

/-- One step of a stream inside a session. -/
theorem proxy_stream_ends {σ ε ev ι : Type} {f : FullItem ε ev ι → ProxyItem}
    (hf : ∀ i, (f i).leaves = some true ∧ i.leaves = some (.at .dead) ∨ (f i).leaves = some false ∧ i.leaves = some .hung ∨
      (f i).leaves = none) {c : FullStream K σ} {items : List (FullItem ε ev ι)} (h : FullEnds (c, items)) :
    (c.ctl = .at .dead → ProxyEnds ((.dead : Proxy K), items.map f)) ∧
    (c.ctl = .hung → ProxyEnds ((.hung : Proxy K), items.map f)) ∧
    (c.ctl ≠ .at .dead → c.ctl ≠ .hung → ∀ i ∈ items.map f, i.ends = false) := by
  have hm : OnlyLast ProxyItem.ends (items.map f) := by
    refine h.1.map fun i hi => ?_
    obtain ⟨k, hk⟩ := (ProxyItem.ends_iff _).mp hi
    rcases hf i with ⟨_, h2⟩ | ⟨_, h2⟩ | h1
    · exact (FullItem.ends_iff i).mpr ⟨_, h2⟩
    · exact (FullItem.ends_iff i).mpr ⟨_, h2⟩
    · rw [h1] at hk; simp at hk
  refine ⟨fun hd => ⟨hm, ?_⟩, fun hd => ⟨hm, ?_⟩, fun h1 h2 => ?_⟩
  · intro i hi k hk
    obtain ⟨j, hj, rfl⟩ := List.mem_map.mp hi
    rcases hf j with ⟨a, b⟩ | ⟨a, b⟩ | a
    · rw [a] at hk; simp only [Option.some.injEq] at hk; rw [← hk]; rfl
    · have := h.2 j hj _ b
      rw [show (c, items).1.ctl = c.ctl from rfl, hd] at this; simp at this
    · rw [a] at hk; simp at hk
  · intro i hi k hk
    obtain ⟨j, hj, rfl⟩ := List.mem_map.mp hi
    rcases hf j with ⟨a, b⟩ | ⟨a, b⟩ | a
    · have := h.2 j hj _ b
      rw [show (c, items).1.ctl = c.ctl from rfl, hd] at this; simp at this
    · rw [a] at hk; simp only [Option.some.injEq] at hk; rw [← hk]; rfl
    · rw [a] at hk; simp at hk
  · intro i hi
    obtain ⟨j, hj, rfl⟩ := List.mem_map.mp hi
    cases he : (f j).ends with
    | false => rfl
    | true =>
      obtain ⟨k, hk⟩ := (ProxyItem.ends_iff _).mp he
      rcases hf j with ⟨a, b⟩ | ⟨a, b⟩ | a
      · exact absurd (h.2 j hj _ b) h1
      · exact absurd (h.2 j hj _ b) h2
      · rw [a] at hk; simp at hk

theorem proxy_dropped_ends {σ ε ev ι : Type} {f : FullItem ε ev ι → ProxyItem}
    (hf : ∀ i, (f i).leaves = some true ∧ i.leaves = some (.at .dead) ∨ (f i).leaves = some false ∧ i.leaves = some .hung ∨
      (f i).leaves = none) (c : FullStream K σ) : ∀ i ∈ (c.dropFuture (ε := ε) (ev := ev) (ι := ι)).2.map f, i.ends = false := by
  intro i hi
  obtain ⟨j, hj, rfl⟩ := List.mem_map.mp hi
  have h0 := FullItem.leaves_none (FullStream.dropFuture_ends c j hj)
  cases he : (f j).ends with
  | false => rfl
  | true =>
    obtain ⟨k, hk⟩ := (ProxyItem.ends_iff _).mp he
    rcases hf j with ⟨a, b⟩ | ⟨a, b⟩ | a
    · rw [h0] at b; simp at b
    · rw [h0] at b; simp at b
    · rw [a] at hk; simp at hk

theorem Proxy.clientBranch_ends (L : Lib) (c : FullStream K Server) (s : FullStream K Client)
    (r : Except (StreamError ServerError) ServerEvent) : ProxyEnds (Proxy.clientBranch L c s r) := by
  have hd := proxy_dropped_ends ProxyItem.ofServer_leaves s
  have hc : ∀ calls : List ClientOp, ∀ i ∈ s.dropFuture.2.map ProxyItem.ofServer ++
      calls.map (fun op => ProxyItem.server (.user op)), i.ends = false := by
    intro calls i hi
    rcases List.mem_append.mp hi with hi | hi
    · exact hd i hi
    · obtain ⟨op, _, rfl⟩ := List.mem_map.mp hi
      rfl
  unfold Proxy.clientBranch
  dsimp only
  split
  · exact ProxyEnds.snoc hd
  · split <;> exact ProxyEnds.of_none (hc _)

theorem Proxy.serverBranch_ends (L : Lib) (c : FullStream K Server) (s : FullStream K Client)
    (r : Except (StreamError ClientError) ClientEvent) : ProxyEnds (Proxy.serverBranch L c s r) := by
  have hd := proxy_dropped_ends ProxyItem.ofClient_leaves c
  have hc : ∀ calls : List ServerOp, ∀ i ∈ c.dropFuture.2.map ProxyItem.ofClient ++
      calls.map (fun op => ProxyItem.client (.user op)), i.ends = false := by
    intro calls i hi
    rcases List.mem_append.mp hi with hi | hi
    · exact hd i hi
    · obtain ⟨op, _, rfl⟩ := List.mem_map.mp hi
      rfl
  unfold Proxy.serverBranch
  dsimp only
  split
  · exact ProxyEnds.snoc hd
  · split <;> exact ProxyEnds.of_none (hc _)

theorem Proxy.step_ends {L : Lib} {g : HandleGenerator} {p p' : Proxy K} {a : ProxyAct} {items : List ProxyItem}
    (h : p.step L g a = some (p', items)) : ProxyEnds (p', items) := by
  have key : ∀ (y : Proxy K × List ProxyItem), some y = some (p', items) → ProxyEnds y → ProxyEnds (p', items) := by
    intro y hy hr
    simp only [Option.some.injEq] at hy; rw [hy] at hr; exact hr
  unfold Proxy.step at h
  split at h
  · split at h
    · simp at h
    · rename_i s its hs
      obtain ⟨e1, e2, e3⟩ := proxy_stream_ends ProxyItem.ofServer_leaves (FullStream.step_ends hs)
      dsimp only at h
      split at h
      · rename_i hd; exact key _ h (e1 hd)
      · rename_i hd
        split at h
        · rename_i hh; exact key _ h (e2 hh)
        · rename_i hh
          split at h
          · exact key _ h (ProxyEnds.of_none (e3 hd hh))
          · split at h
            · exact key _ h (ProxyEnds.snoc (e3 hd hh))
            · exact key _ h (ProxyEnds.of_none (e3 hd hh))
  · split at h
    · simp at h
    · rename_i s its hs
      obtain ⟨e1, e2, e3⟩ := proxy_stream_ends ProxyItem.ofClient_leaves (FullStream.step_ends hs)
      dsimp only at h
      split at h
      · rename_i hd; exact key _ h (e1 hd)
      · rename_i hd
        split at h
        · rename_i hh; exact key _ h (e2 hh)
        · rename_i hh
          split at h
          · exact key _ h (ProxyEnds.of_none (e3 hd hh))
          · exact key _ h (ProxyEnds.append (e3 hd hh) (Proxy.clientBranch_ends _ _ _ _))
  · split at h
    · simp at h
    · rename_i s its hs
      obtain ⟨e1, e2, e3⟩ := proxy_stream_ends ProxyItem.ofServer_leaves (FullStream.step_ends hs)
      dsimp only at h
      split at h
      · rename_i hd; exact key _ h (e1 hd)
      · rename_i hd
        split at h
        · rename_i hh; exact key _ h (e2 hh)
        · rename_i hh
          split at h
          · exact key _ h (ProxyEnds.of_none (e3 hd hh))
          · exact key _ h (ProxyEnds.append (e3 hd hh) (Proxy.serverBranch_ends _ _ _ _))
  · simp at h

theorem Proxy.run_over {L : Lib} {g : HandleGenerator} {p p' : Proxy K} (h : p = .dead ∨ p = .hung ∨ p = .over)
    {as : List ProxyAct} {T : List ProxyItem} (hr : p.run L g as = some (p', T)) : as = [] ∧ T = [] ∧ p' = p := by
  cases as with
  | nil => simp [Proxy.run] at hr; exact ⟨rfl, hr.2, hr.1.symm⟩
  | cons a as => rcases h with rfl | rfl | rfl <;> cases a <;> simp [Proxy.run, Proxy.step] at hr

theorem Proxy.IsLeft.over {p : Proxy K} {k : Bool} (h : p.IsLeft k) : p = .dead ∨ p = .hung ∨ p = .over := by
  cases k
  · exact .inr (.inl h)
  · exact .inl h

theorem Proxy.run_ends {L : Lib} {g : HandleGenerator} {p p' : Proxy K} {as : List ProxyAct} {T : List ProxyItem}
    (h : p.run L g as = some (p', T)) : ProxyEnds (p', T) := by
  induction as generalizing p T with
  | nil => simp [Proxy.run] at h; rw [h.2]; exact ProxyEnds.of_none (by simp)
  | cons a as ih =>
    simp only [Proxy.run] at h
    split at h
    · simp at h
    · rename_i p1 items h1
      split at h
      · simp at h
      · rename_i p2 T2 h2
        simp only [Option.some.injEq, Prod.mk.injEq] at h
        obtain ⟨rfl, rfl⟩ := h
        obtain ⟨s1, s2⟩ := Proxy.step_ends h1
        obtain ⟨r1, r2⟩ := ih h2
        refine ⟨s1.append r1 ?_, ?_⟩
        · rintro ⟨i, hi, he⟩
          obtain ⟨k, hk⟩ := (ProxyItem.ends_iff i).mp he
          exact (Proxy.run_over (s2 i hi k hk).over h2).2.1
        · intro i hi k hk
          rcases List.mem_append.mp hi with hi | hi
          · have hl := s2 i hi k hk
            show p2.IsLeft k
            rw [(Proxy.run_over hl.over h2).2.2]; exact hl
          · exact r2 i hi k hk

end proxy

end ImapFlow

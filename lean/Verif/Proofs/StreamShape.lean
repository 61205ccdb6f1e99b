import Verif.Proofs.Stream

/-!
# The shape of the steps of a stream
-/

namespace ImapFlow

variable {σ ε ev ι : Type}

namespace StreamConf

/-- The items of a step that calls the state. -/
def Enters (c c0 : StreamConf σ) (x : StreamItem ε ev ι) : Prop :=
  (x = .callNext ∧ c.ctl = .idle ∧ c0.readBuffer = c.readBuffer ∧ c0.writeBuffer = c.writeBuffer) ∨
  (∃ b, x = .read b ∧ b ≠ [] ∧ c0.readBuffer = c.readBuffer ++ b ∧ c0.writeBuffer = c.writeBuffer) ∨
  (∃ b, x = .wrote b ∧ b ≠ [] ∧ c0.readBuffer = c.readBuffer ∧ c.writeBuffer = b ∧ c0.writeBuffer = [])

/-- The shape of a step. -/
inductive Shape (M : Machine σ ε ev ι) (c c' : StreamConf σ) : List (StreamItem ε ev ι) → Prop where
  | enters (x c0) : Enters c c0 x → c' = (advance M c0).1 → c0.state = c.state → Shape M c c' (x :: (advance M c0).2)
  | closed (x) : c'.ctl = .idle → x = .read [] ∨ x = .wrote [] → Shape M c c' [x, .returned (.error .closed)]
  | failed : c'.ctl = .idle → Shape M c c' [.failed, .returned (.error .io)]
  | flushed (T) : c'.ctl = .idle → c'.writeBuffer = [] → T = [.callFlush] ∨ (∃ b, b ≠ [] ∧ T = [.wrote b]) →
      Shape M c c' (T ++ [.flushed (.ok ())])
  | notFlushed (x e) : c'.ctl = .idle → (x = .wrote [] ∧ e = .closed) ∨ (x = .failed ∧ e = .io) →
      Shape M c c' [x, .flushed (.error e)]
  | single (x) : x = .callFlush ∨ x = .dropped ∨ (∃ op, x = .user op) ∨ (∃ b, b ≠ [] ∧ x = .wrote b) → Shape M c c' [x]
  | panic (op p) : c'.ctl = .dead → Shape M c c' [.user op, .panicked p]

theorem take_ne {b : Bytes} {n : Nat} (h : n ≤ b.length) (hn : n ≠ 0) : b.take n ≠ [] := by
  intro h1
  have := congrArg List.length h1
  rw [List.length_take] at this
  simp only [List.length_nil] at this
  omega

theorem step_shape {M : Machine σ ε ev ι} {c c' : StreamConf σ} {a : StreamAct ι} {T : List (StreamItem ε ev ι)}
    (h : step M c a = some (c', T)) : Shape M c c' T := by
  cases a with
  | user op =>
    simp only [step] at h
    split at h
    · split at h
      · cases h; exact .panic op _ rfl
      · cases h; exact .single _ (Or.inr (Or.inr (Or.inl ⟨op, rfl⟩)))
    · cases h
  | callNext =>
    simp only [step] at h
    split at h
    · rename_i hc
      cases h
      exact .enters _ c (Or.inl ⟨rfl, hc, rfl, rfl⟩) rfl rfl
    · cases h
  | callFlush =>
    simp only [step] at h
    split at h
    · rename_i hc
      split at h
      · rename_i he
        cases h
        exact .flushed [.callFlush] hc (List.isEmpty_iff.1 he) (Or.inl rfl)
      · cases h; exact .single _ (Or.inl rfl)
    · cases h
  | read bytes =>
    have key : Shape M c (completeRead M c bytes).1 (completeRead M c bytes).2 := by
      unfold completeRead
      dsimp only
      split
      · rename_i h0
        rw [List.length_eq_zero_iff] at h0
        subst h0
        exact .closed _ rfl (Or.inl rfl)
      · rename_i h0
        refine .enters _ _ (Or.inr (Or.inl ⟨bytes, rfl, ?_, rfl, rfl⟩)) rfl rfl
        intro h1; subst h1; exact h0 rfl
    simp only [step] at h
    split at h
    all_goals first | cases h | skip
    all_goals
      injection h with h
      rw [h] at key
      exact key
  | write n =>
    simp only [step] at h
    split at h
    · rename_i hn
      split at h
      · injection h with h
        unfold completeWrite at h
        dsimp only at h
        split at h
        · rename_i h0
          subst h0
          cases h
          exact .closed _ rfl (Or.inr rfl)
        · rename_i h0
          have hne := take_ne hn h0
          split at h
          · rename_i he
            rw [List.isEmpty_iff] at he
            cases h
            refine .enters _ _ (Or.inr (Or.inr ⟨c.writeBuffer.take n, rfl, hne, rfl, ?_, he⟩)) rfl rfl
            rw [List.drop_eq_nil_iff] at he
            exact (List.take_of_length_le he).symm
          · cases h
            exact .single _ (Or.inr (Or.inr (Or.inr ⟨_, hne, rfl⟩)))
      · injection h with h
        unfold completeFlush at h
        dsimp only at h
        split at h
        · rename_i h0
          subst h0
          cases h
          exact .notFlushed _ _ rfl (Or.inl ⟨rfl, rfl⟩)
        · rename_i h0
          have hne := take_ne hn h0
          split at h
          · rename_i he
            rw [List.isEmpty_iff] at he
            cases h
            exact .flushed [.wrote (c.writeBuffer.take n)] rfl he (Or.inr ⟨_, hne, rfl⟩)
          · cases h
            exact .single _ (Or.inr (Or.inr (Or.inr ⟨_, hne, rfl⟩)))
      · cases h
    · cases h
  | fail =>
    simp only [step] at h
    split at h
    · cases h; exact .failed rfl
    · cases h; exact .failed rfl
    · cases h; exact .notFlushed _ _ rfl (Or.inr ⟨rfl, rfl⟩)
    · cases h
  | drop =>
    simp only [step] at h
    split at h
    all_goals cases h
    all_goals exact .single _ (Or.inr (Or.inl rfl))

/-- Every item of a run belongs to a step. -/
theorem run_split {M : Machine σ ε ev ι} {as : List (StreamAct ι)} {c c' : StreamConf σ}
    {pre post : List (StreamItem ε ev ι)} {x : StreamItem ε ev ι}
    (h : run M c as = some (c', pre ++ x :: post)) :
    ∃ as1 a as2 c1 c2 T1 T2 q q', as = as1 ++ a :: as2 ∧ run M c as1 = some (c1, T1) ∧ step M c1 a = some (c2, q ++ x :: q') ∧
      run M c2 as2 = some (c', T2) ∧ pre = T1 ++ q ∧ post = q' ++ T2 := by
  induction as generalizing c pre with
  | nil => simp [run] at h
  | cons a as ih =>
    simp only [run] at h
    split at h
    · cases h
    · rename_i c1 T1 hs
      split at h
      · cases h
      · rename_i c2 T2 hr
        simp only [Option.some.injEq, Prod.mk.injEq] at h
        obtain ⟨rfl, h⟩ := h
        rw [List.append_eq_append_iff] at h
        rcases h with ⟨q, h1, h2⟩ | ⟨q, h1, h2⟩
        · subst h1
          rw [h2] at hr
          obtain ⟨as1, b, as2, c3, c4, U1, U2, p, p', e1, e2, e3, e4, e5, e6⟩ := ih hr
          refine ⟨a :: as1, b, as2, c3, c4, T1 ++ U1, U2, p, p', by rw [e1]; rfl, ?_, e3, e4, ?_, e6⟩
          · simp [run, hs, e2]
          · rw [e5, List.append_assoc]
        · cases q with
          | nil =>
            simp only [List.append_nil, List.nil_append] at h1 h2
            subst h1
            rw [← h2] at hr
            obtain ⟨as1, b, as2, c3, c4, U1, U2, p, p', e1, e2, e3, e4, e5, e6⟩ := ih (pre := []) hr
            refine ⟨a :: as1, b, as2, c3, c4, T1 ++ U1, U2, p, p', by rw [e1]; rfl, ?_, e3, e4, ?_, e6⟩
            · simp [run, hs, e2]
            · rw [List.append_assoc, ← e5, List.append_nil]
          | cons y q =>
            simp only [List.cons_append, List.cons.injEq] at h2
            obtain ⟨rfl, h2⟩ := h2
            subst h1
            exact ⟨[], a, as, c, c1, [], T2, pre, q, rfl, rfl, hs, hr, rfl, h2⟩

end StreamConf

end ImapFlow

namespace ImapFlow

variable {σ ε ev ι : Type}

namespace StreamConf

theorem deliver_split {T U q q' : List (StreamItem ε ev ι)} {x : StreamItem ε ev ι}
    (hT : ∀ i ∈ T, ∃ b, i = .deliver b) (hx : ∀ b, x ≠ .deliver b) (h : T ++ U = q ++ x :: q') :
    ∃ q2, q = T ++ q2 ∧ U = q2 ++ x :: q' := by
  rw [List.append_eq_append_iff] at h
  rcases h with ⟨r, h1, h2⟩ | ⟨r, h1, h2⟩
  · exact ⟨r, h1, h2⟩
  · cases r with
    | nil =>
      simp only [List.append_nil, List.nil_append] at h1 h2
      exact ⟨[], by simp [h1], by simp [h2]⟩
    | cons y r =>
      simp only [List.cons_append, List.cons.injEq] at h2
      obtain ⟨b, hb⟩ := hT y (by rw [h1]; simp)
      exact (hx b (by rw [h2.1, hb])).elim

/-- Where the results of the state and of `next` stand in an iteration. -/
theorem Advance.split {c c' : StreamConf σ} {T q q' : List (StreamItem ε ev ι)} {x : StreamItem ε ev ι}
    (h : Advance c c' T) (hT : T = q ++ x :: q') :
    (∀ r, x = .poll r → streamDelivered q = c.readBuffer ∧ streamRead q = [] ∧ streamWrote q = [] ∧
      (∀ e, r = .ok e → q' = [.returned (.ok e)] ∧ c'.writeBuffer = c.writeBuffer) ∧
      (∀ e, r = .error (.error e) → q' = [.returned (.error (.state e))]) ∧
      (∀ io, r = .error (.io io) → q' = [])) ∧
    (∀ r, x = .returned r → (∃ q1 y, q = q1 ++ [y] ∧ y.Explains r) ∧ c'.ctl = .idle ∧ q' = [] ∧
      (∀ e, r = .ok e → c'.writeBuffer = c.writeBuffer)) ∧
    (∀ b, x ≠ .read b) ∧ (∀ b, x ≠ .wrote b) ∧ x ≠ .failed ∧ (∀ r, x ≠ .flushed r) := by
  have hrw : ∀ T : List (StreamItem ε ev ι), (∀ i ∈ T, ∃ b, i = .deliver b) → streamRead T = [] ∧ streamWrote T = [] := by
    intro T hT
    constructor
    · simp only [streamRead, List.flatMap_eq_nil_iff]
      intro i hi
      obtain ⟨b, rfl⟩ := hT i hi
      rfl
    · simp only [streamWrote, List.flatMap_eq_nil_iff]
      intro i hi
      obtain ⟨b, rfl⟩ := hT i hi
      rfl
  by_cases hx : ∃ b, x = .deliver b
  · obtain ⟨b, rfl⟩ := hx
    refine ⟨?_, ?_, ?_, ?_, ?_, ?_⟩ <;> first | (intro r hr; cases hr) | (intro hr; cases hr)
  · have hx' : ∀ b, x ≠ .deliver b := fun b hb => hx ⟨b, hb⟩
    cases h with
    | panic T0 p hc hd =>
      obtain ⟨q2, rfl, hU⟩ := deliver_split hd hx' hT
      simp only [List.cons_eq_append_iff, List.cons.injEq, List.nil_eq, List.append_eq_nil_iff, reduceCtorEq, and_false,
        exists_false, or_false] at hU
      obtain ⟨rfl, rfl, rfl⟩ := hU
      refine ⟨?_, ?_, ?_, ?_, ?_, ?_⟩ <;> first | (intro r hr; cases hr) | (intro hr; cases hr)
    | event T0 e hc hd hdel hw =>
      obtain ⟨q2, rfl, hU⟩ := deliver_split hd hx' hT
      obtain ⟨h1, h2⟩ := hrw T0 hd
      simp only [List.cons_eq_append_iff, List.cons.injEq, List.nil_eq, List.append_eq_nil_iff, reduceCtorEq, and_false,
        exists_false, or_false] at hU
      rcases hU with ⟨rfl, rfl, rfl⟩ | ⟨_, rfl, rfl, rfl, rfl⟩
      · refine ⟨?_, ?_, ?_, ?_, ?_, ?_⟩
        · intro r hr
          cases hr
          refine ⟨by simpa using hdel, by simpa using h1, by simpa using h2, ?_, ?_, ?_⟩
          · intro e' he; cases he; exact ⟨rfl, hw⟩
          · intro e' he; cases he
          · intro e' he; cases he
        all_goals first | (intro r hr; cases hr) | (intro hr; cases hr)
      · refine ⟨?_, ?_, ?_, ?_, ?_, ?_⟩
        · intro r hr; cases hr
        · intro r hr
          cases hr
          exact ⟨⟨T0, _, rfl, rfl⟩, hc, rfl, fun _ _ => hw⟩
        all_goals first | (intro r hr; cases hr) | (intro hr; cases hr)
    | error T0 e hc hd hdel =>
      obtain ⟨q2, rfl, hU⟩ := deliver_split hd hx' hT
      obtain ⟨h1, h2⟩ := hrw T0 hd
      simp only [List.cons_eq_append_iff, List.cons.injEq, List.nil_eq, List.append_eq_nil_iff, reduceCtorEq, and_false,
        exists_false, or_false] at hU
      rcases hU with ⟨rfl, rfl, rfl⟩ | ⟨_, rfl, rfl, rfl, rfl⟩
      · refine ⟨?_, ?_, ?_, ?_, ?_, ?_⟩
        · intro r hr
          cases hr
          refine ⟨by simpa using hdel, by simpa using h1, by simpa using h2, ?_, ?_, ?_⟩
          · intro e' he; cases he
          · intro e' he; cases he; rfl
          · intro e' he; cases he
        all_goals first | (intro r hr; cases hr) | (intro hr; cases hr)
      · refine ⟨?_, ?_, ?_, ?_, ?_, ?_⟩
        · intro r hr; cases hr
        · intro r hr
          cases hr
          exact ⟨⟨T0, _, rfl, rfl⟩, hc, rfl, fun _ h => by cases h⟩
        all_goals first | (intro r hr; cases hr) | (intro hr; cases hr)
    | io T0 io hc hd hdel =>
      obtain ⟨q2, rfl, hU⟩ := deliver_split hd hx' hT
      obtain ⟨h1, h2⟩ := hrw T0 hd
      simp only [List.cons_eq_append_iff, List.cons.injEq, List.nil_eq, List.append_eq_nil_iff, reduceCtorEq, and_false,
        exists_false, or_false] at hU
      obtain ⟨rfl, rfl, rfl⟩ := hU
      refine ⟨?_, ?_, ?_, ?_, ?_, ?_⟩
      · intro r hr
        cases hr
        refine ⟨by simpa using hdel, by simpa using h1, by simpa using h2, ?_, ?_, ?_⟩
        · intro e' he; cases he
        · intro e' he; cases he
        · intro e' he; rfl
      all_goals first | (intro r hr; cases hr) | (intro hr; cases hr)

theorem Enters.not_poll {c c0 : StreamConf σ} {x : StreamItem ε ev ι} (h : Enters c c0 x) :
    (∀ r, x ≠ .poll r) ∧ (∀ r, x ≠ .returned r) ∧ (∀ r, x ≠ .flushed r) ∧ x ≠ .failed ∧ x ≠ .read [] ∧ x ≠ .wrote [] := by
  rcases h with ⟨rfl, -⟩ | ⟨b, rfl, hb, -⟩ | ⟨b, rfl, hb, -⟩
  · simp
  · simp [hb]
  · simp [hb]

/-- The result of a call of the state stands in an iteration. -/
theorem Shape.poll {M : Machine σ ε ev ι} {c c' : StreamConf σ} {q q' : List (StreamItem ε ev ι)}
    {r : Except (Interrupt ε) ev} (h : Shape M c c' (q ++ .poll r :: q')) :
    ∃ x c0 q1, q = x :: q1 ∧ Enters c c0 x ∧ c' = (advance M c0).1 ∧ (advance M c0).2 = q1 ++ .poll r :: q' := by
  generalize hT : q ++ .poll r :: q' = U at h
  have hm : .poll r ∈ U := by rw [← hT]; simp
  cases h with
  | enters x c0 he hc =>
    cases q with
    | nil =>
      injection hT with e1 e2
      exact (he.not_poll.1 _ e1.symm).elim
    | cons y q =>
      injection hT with e1 e2
      subst e1
      exact ⟨y, c0, q, rfl, he, hc, e2.symm⟩
  | closed x _ hx => rcases hx with rfl | rfl <;> simp at hm
  | failed => simp at hm
  | flushed T _ _ hx => rcases hx with rfl | ⟨b, _, rfl⟩ <;> simp at hm
  | notFlushed x e _ hx => rcases hx with ⟨rfl, rfl⟩ | ⟨rfl, rfl⟩ <;> simp at hm
  | single x hx => rcases hx with rfl | rfl | ⟨op, rfl⟩ | ⟨b, _, rfl⟩ <;> simp at hm
  | panic op p => simp at hm

/-- The result of `next` stands in an iteration or behind an operation of the socket. -/
theorem Shape.returned {M : Machine σ ε ev ι} {c c' : StreamConf σ} {q q' : List (StreamItem ε ev ι)}
    {r : Except (StreamError ε) ev} (h : Shape M c c' (q ++ .returned r :: q')) :
    (∃ x c0 q1, q = x :: q1 ∧ Enters c c0 x ∧ c' = (advance M c0).1 ∧ (advance M c0).2 = q1 ++ .returned r :: q') ∨
    (∃ y, q = [y] ∧ y.Explains r ∧ (r = .error .closed ∨ r = .error .io)) := by
  generalize hT : q ++ .returned r :: q' = U at h
  have hm : .returned r ∈ U := by rw [← hT]; simp
  have key : ∀ (x : StreamItem ε ev ι) (e : StreamError ε), x ≠ .returned r → [x, .returned (.error e)] = U →
      ∃ y, q = [y] ∧ y = x ∧ r = .error e := by
    intro x e hx hU
    rw [← hT] at hU
    cases q with
    | nil =>
      injection hU with e1 e2
      exact (hx e1).elim
    | cons y q =>
      injection hU with e1 e2
      cases q with
      | nil =>
        injection e2 with e2 e3
        cases e2
        exact ⟨y, rfl, e1.symm, rfl⟩
      | cons z q =>
        have := congrArg List.length e2
        simp at this
  cases h with
  | enters x c0 he hc =>
    cases q with
    | nil =>
      injection hT with e1 e2
      exact (he.not_poll.2.1 _ e1.symm).elim
    | cons y q =>
      injection hT with e1 e2
      subst e1
      exact Or.inl ⟨y, c0, q, rfl, he, hc, e2.symm⟩
  | closed x _ hx =>
    obtain ⟨y, e1, e2, e3⟩ := key x .closed (by rcases hx with rfl | rfl <;> simp) rfl
    subst e2 e3
    exact Or.inr ⟨y, e1, hx, Or.inl rfl⟩
  | failed =>
    obtain ⟨y, e1, e2, e3⟩ := key .failed .io (by simp) rfl
    subst e2 e3
    exact Or.inr ⟨_, e1, rfl, Or.inr rfl⟩
  | flushed T _ _ hx => rcases hx with rfl | ⟨b, _, rfl⟩ <;> simp at hm
  | notFlushed x e _ hx => rcases hx with ⟨rfl, rfl⟩ | ⟨rfl, rfl⟩ <;> simp at hm
  | single x hx => rcases hx with rfl | rfl | ⟨op, rfl⟩ | ⟨b, _, rfl⟩ <;> simp at hm
  | panic op p => simp at hm

/-- Unless the state panicked, nothing is left in the read buffer. -/
theorem run_readBuffer {M : Machine σ ε ev ι} {as : List (StreamAct ι)} {c c' : StreamConf σ}
    {T : List (StreamItem ε ev ι)} (hc : c.readBuffer = []) (h : run M c as = some (c', T)) (hd : c'.ctl ≠ .dead) :
    c'.readBuffer = [] := by
  classical
  induction as generalizing c T with
  | nil =>
    simp only [run, Option.some.injEq, Prod.mk.injEq] at h
    rw [← h.1]; exact hc
  | cons a as ih =>
    simp only [run] at h
    split at h
    · cases h
    · rename_i c1 T1 hs
      split at h
      · cases h
      · rename_i c2 T2 hr
        cases h
        have h2 : c1.ctl ≠ .dead := by
          intro h3
          cases as with
          | nil =>
            simp only [run, Option.some.injEq, Prod.mk.injEq] at hr
            rw [← hr.1] at hd
            exact hd h3
          | cons b bs =>
            simp only [run] at hr
            split at hr
            · cases hr
            · rename_i hs2
              exact (step_moves hs2).2 h3
        refine ih ?_ hr
        have h1 := (step_moves hs).1.input
        rw [hc, List.nil_append] at h1
        cases step_shape hs with
        | enters x c0 he e1 _ =>
          have h3 := (advance_spec M c0).1.input
          have h4 := (advance_spec M c0).2
          subst e1
          have key : ∀ U : List (StreamItem ε ev ι), (∀ i ∈ U, ∃ b, i = .deliver b) → streamDelivered U = c0.readBuffer →
              ∀ V : List (StreamItem ε ev ι), streamDelivered V = [] → streamRead V = [] →
              streamDelivered (U ++ V) ++ (advance M c0).1.readBuffer = c0.readBuffer ++ streamRead (U ++ V) →
              (advance M c0).1.readBuffer = [] := by
            intro U hU hdU V hV hV2 heq
            have h5 : streamRead U = [] := by
              simp only [streamRead, List.flatMap_eq_nil_iff]
              intro i hi
              obtain ⟨b, rfl⟩ := hU i hi
              rfl
            rw [streamDelivered_append, streamRead_append, hV, hV2, h5, hdU, List.append_nil, List.append_nil] at heq
            simpa using heq
          generalize (advance M c0).2 = W at h3 h4
          cases h4 with
          | panic U p hp _ => exact (h2 hp).elim
          | event U e _ hU hdU _ => exact key U hU hdU _ rfl rfl h3
          | error U e _ hU hdU => exact key U hU hdU _ rfl rfl h3
          | io U e _ hU hdU => exact key U hU hdU _ rfl rfl h3
        | closed x _ hx => rcases hx with rfl | rfl <;> simpa [streamDelivered, streamRead] using h1
        | failed => simpa [streamDelivered, streamRead] using h1
        | flushed T _ _ hx => rcases hx with rfl | ⟨b, _, rfl⟩ <;> simpa [streamDelivered, streamRead] using h1
        | notFlushed x e _ hx => rcases hx with ⟨rfl, rfl⟩ | ⟨rfl, rfl⟩ <;> simpa [streamDelivered, streamRead] using h1
        | single x hx =>
          rcases hx with rfl | rfl | ⟨op, rfl⟩ | ⟨b, _, rfl⟩ <;> simpa [streamDelivered, streamRead] using h1
        | panic op p hp => exact (h2 hp).elim

end StreamConf

end ImapFlow

import Verif.Spec.StreamTrace
import Verif.Proofs.Lists

/-!
# Facts about the stream
-/

namespace ImapFlow

variable {σ ε ev ι : Type}

section Append

theorem streamRead_append (T U : List (StreamItem ε ev ι)) : streamRead (T ++ U) = streamRead T ++ streamRead U := by
  simp [streamRead]

theorem streamDelivered_append (T U : List (StreamItem ε ev ι)) :
    streamDelivered (T ++ U) = streamDelivered T ++ streamDelivered U := by
  simp [streamDelivered]

theorem streamOutput_append (T U : List (StreamItem ε ev ι)) :
    streamOutput (T ++ U) = streamOutput T ++ streamOutput U := by
  simp [streamOutput]

theorem streamWrote_append (T U : List (StreamItem ε ev ι)) : streamWrote (T ++ U) = streamWrote T ++ streamWrote U := by
  simp [streamWrote]

theorem Machine.replay_append [DecidableEq ε] [DecidableEq ev] (M : Machine σ ε ev ι) (s : σ)
    (T U : List (StreamItem ε ev ι)) : M.replay s (T ++ U) = (M.replay s T).bind fun s => M.replay s U := by
  induction T generalizing s with
  | nil => rfl
  | cons i T ih =>
    cases i <;> simp only [List.cons_append, replay, ih]
    all_goals (first | rfl | (split <;> first | rfl | (split <;> rfl)))

end Append

/-- What a piece of a run does to the stream. -/
structure StreamConf.Moves [DecidableEq ε] [DecidableEq ev] (M : Machine σ ε ev ι) (c c' : StreamConf σ)
    (T : List (StreamItem ε ev ι)) : Prop where
  input : streamDelivered T ++ c'.readBuffer = c.readBuffer ++ streamRead T
  output : streamWrote T ++ c'.writeBuffer = c.writeBuffer ++ streamOutput T
  replay : c'.ctl ≠ .dead → M.replay c.state T = some c'.state
  reading : c'.ctl = .reading → c'.writeBuffer = []
  racing : c'.ctl = .racing ∨ c'.ctl = .flushing → c'.writeBuffer ≠ []

namespace StreamConf

variable [DecidableEq ε] [DecidableEq ev]

/-- The shape of an iteration of the loop. -/
inductive Advance (c c' : StreamConf σ) : List (StreamItem ε ev ι) → Prop where
  | panic (T p) : c'.ctl = .dead → (∀ i ∈ T, ∃ b, i = .deliver b) → Advance c c' (T ++ [.panicked p])
  | event (T e) : c'.ctl = .idle → (∀ i ∈ T, ∃ b, i = .deliver b) → streamDelivered T = c.readBuffer →
      c'.writeBuffer = c.writeBuffer → Advance c c' (T ++ [.poll (.ok e), .returned (.ok e)])
  | error (T e) : c'.ctl = .idle → (∀ i ∈ T, ∃ b, i = .deliver b) → streamDelivered T = c.readBuffer →
      Advance c c' (T ++ [.poll (.error (.error e)), .returned (.error (.state e))])
  | io (T io) : (c'.ctl = .reading ∨ c'.ctl = .racing) → (∀ i ∈ T, ∃ b, i = .deliver b) →
      streamDelivered T = c.readBuffer → Advance c c' (T ++ [.poll (.error (.io io))])

theorem provideInput_ok {M : Machine σ ε ev ι} {c c' : StreamConf σ} {T : List (StreamItem ε ev ι)}
    (h : provideInput M c = .ok (c', T)) :
    c'.readBuffer = [] ∧ c'.writeBuffer = c.writeBuffer ∧ c'.ctl = c.ctl ∧ streamDelivered T = c.readBuffer ∧
    streamRead T = [] ∧ streamWrote T = [] ∧ streamOutput T = [] ∧ M.replay c.state T = some c'.state ∧
    ∀ i ∈ T, ∃ b, i = .deliver b := by
  unfold provideInput at h
  split at h
  · rename_i he
    injection h with h
    injection h with h1 h2
    subst h1 h2
    rw [List.isEmpty_iff] at he
    simp [he, streamDelivered, streamRead, streamWrote, streamOutput, Machine.replay]
  · split at h
    · cases h
    · rename_i s hs
      injection h with h
      injection h with h1 h2
      subst h1 h2
      simp [streamDelivered, streamRead, streamWrote, streamOutput, Machine.replay, hs]

theorem advance_spec (M : Machine σ ε ev ι) (c : StreamConf σ) :
    Moves M c (advance M c).1 (advance M c).2 ∧ Advance c (advance M c).1 (advance M c).2 := by
  unfold advance
  split
  · refine ⟨⟨?_, ?_, ?_, ?_, ?_⟩, .panic [] _ rfl (by simp)⟩ <;>
      simp [streamDelivered, streamRead, streamWrote, streamOutput]
  · rename_i c1 T hp
    obtain ⟨h1, h2, h3, h4, h5, h6, h7, h8, h9⟩ := provideInput_ok hp
    split
    · refine ⟨⟨?_, ?_, ?_, ?_, ?_⟩, .panic T _ rfl h9⟩ <;>
        simp [streamDelivered_append, streamRead_append, streamWrote_append, streamOutput_append, h1, h2, h4, h5, h6, h7] <;>
        simp [streamDelivered, streamRead, streamWrote, streamOutput]
    · rename_i s r hn
      have hr : M.replay c.state (T ++ [.poll r]) = some s := by
        rw [Machine.replay_append, h8]
        simp [Machine.replay, hn]
      have hr2 : ∀ x, M.replay c.state (T ++ [.poll r] ++ [.returned x]) = some s := by
        intro x
        rw [Machine.replay_append, hr]
        rfl
      split
      · refine ⟨⟨?_, ?_, ?_, ?_, ?_⟩, ?_⟩
        · simp [streamDelivered_append, streamRead_append, h1, h4, h5]
          simp [streamDelivered, streamRead]
        · simp [streamWrote_append, streamOutput_append, h2, h6, h7]
          simp [streamWrote, streamOutput]
        · intro _; exact hr2 _
        · intro h; cases h
        · intro h; rcases h with h | h <;> cases h
        · simp only [List.append_assoc, List.singleton_append]
          exact .event T _ rfl h9 h4 h2
      · refine ⟨⟨?_, ?_, ?_, ?_, ?_⟩, ?_⟩
        · simp [streamDelivered_append, streamRead_append, h1, h4, h5]
          simp [streamDelivered, streamRead]
        · simp [streamWrote_append, streamOutput_append, h2, h6, h7]
          simp [streamWrote, streamOutput]
        · intro _; exact hr2 _
        · intro h; cases h
        · intro h; rcases h with h | h <;> cases h
        · simp only [List.append_assoc, List.singleton_append]
          exact .error T _ rfl h9 h4
      · rename_i io
        cases io with
        | needMoreInput =>
          simp only
          split
          · rename_i he
            rw [List.isEmpty_iff] at he
            refine ⟨⟨?_, ?_, fun _ => hr, fun _ => he, ?_⟩, .io T _ (Or.inl rfl) h9 h4⟩
            · simp [streamDelivered_append, streamRead_append, h1, h4, h5]
              simp [streamDelivered, streamRead]
            · simp [streamWrote_append, streamOutput_append, h2, h6, h7]
              simp [streamWrote, streamOutput]
            · intro h; rcases h with h | h <;> cases h
          · rename_i he
            rw [List.isEmpty_iff] at he
            refine ⟨⟨?_, ?_, fun _ => hr, ?_, fun _ => he⟩, .io T _ (Or.inr rfl) h9 h4⟩
            · simp [streamDelivered_append, streamRead_append, h1, h4, h5]
              simp [streamDelivered, streamRead]
            · simp [streamWrote_append, streamOutput_append, h2, h6, h7]
              simp [streamWrote, streamOutput]
            · intro h; cases h
        | output b =>
          simp only
          split
          · rename_i he
            rw [List.isEmpty_iff] at he
            refine ⟨⟨?_, ?_, fun _ => hr, fun _ => he, ?_⟩, .io T _ (Or.inl rfl) h9 h4⟩
            · simp [streamDelivered_append, streamRead_append, h1, h4, h5]
              simp [streamDelivered, streamRead]
            · simp [streamWrote_append, streamOutput_append, h2, h6, h7]
              simp [streamWrote, streamOutput]
            · intro h; rcases h with h | h <;> cases h
          · rename_i he
            rw [List.isEmpty_iff] at he
            refine ⟨⟨?_, ?_, fun _ => hr, ?_, fun _ => he⟩, .io T _ (Or.inr rfl) h9 h4⟩
            · simp [streamDelivered_append, streamRead_append, h1, h4, h5]
              simp [streamDelivered, streamRead]
            · simp [streamWrote_append, streamOutput_append, h2, h6, h7]
              simp [streamWrote, streamOutput]
            · intro h; cases h

theorem Moves.trans {M : Machine σ ε ev ι} {c c1 c2 : StreamConf σ} {T U : List (StreamItem ε ev ι)}
    (h : Moves M c c1 T) (hd : c1.ctl ≠ .dead) (h' : Moves M c1 c2 U) : Moves M c c2 (T ++ U) where
  input := by
    rw [streamDelivered_append, streamRead_append, List.append_assoc, h'.input, ← List.append_assoc, h.input,
      List.append_assoc]
  output := by
    rw [streamWrote_append, streamOutput_append, List.append_assoc, h'.output, ← List.append_assoc, h.output,
      List.append_assoc]
  replay := by
    intro h1
    rw [Machine.replay_append, h.replay hd]
    exact h'.replay h1
  reading := h'.reading
  racing := h'.racing

theorem advance_moves {M : Machine σ ε ev ι} {c c0 : StreamConf σ} {T : List (StreamItem ε ev ι)}
    (hi : streamDelivered T ++ c0.readBuffer = c.readBuffer ++ streamRead T)
    (ho : streamWrote T ++ c0.writeBuffer = c.writeBuffer ++ streamOutput T)
    (hr : M.replay c.state T = some c0.state) :
    Moves M c (advance M c0).1 (T ++ (advance M c0).2) := by
  have h' := (advance_spec M c0).1
  refine ⟨?_, ?_, ?_, h'.reading, h'.racing⟩
  · rw [streamDelivered_append, streamRead_append, List.append_assoc, h'.input, ← List.append_assoc, hi,
      List.append_assoc]
  · rw [streamWrote_append, streamOutput_append, List.append_assoc, h'.output, ← List.append_assoc, ho,
      List.append_assoc]
  · intro h1
    rw [Machine.replay_append, hr]
    exact h'.replay h1

theorem completeRead_moves (M : Machine σ ε ev ι) (c : StreamConf σ) (bytes : Bytes) :
    Moves M c (completeRead M c bytes).1 (completeRead M c bytes).2 := by
  unfold completeRead
  split
  · refine ⟨?_, ?_, fun _ => rfl, ?_, ?_⟩ <;> simp [streamDelivered, streamRead, streamWrote, streamOutput]
  · refine advance_moves (T := [.read bytes]) ?_ ?_ rfl <;>
      simp [streamDelivered, streamRead, streamWrote, streamOutput]

theorem completeWrite_moves (M : Machine σ ε ev ι) {c : StreamConf σ} {n : Nat} (hc : c.ctl = .racing) :
    Moves M c (completeWrite M c n).1 (completeWrite M c n).2 := by
  unfold completeWrite
  dsimp only
  split
  · refine ⟨?_, ?_, fun _ => rfl, ?_, ?_⟩ <;> simp [streamDelivered, streamRead, streamWrote, streamOutput]
  · split
    · refine advance_moves (T := [.wrote (c.writeBuffer.take n)]) ?_ ?_ rfl <;>
        simp [streamDelivered, streamRead, streamWrote, streamOutput]
    · rename_i he
      rw [List.isEmpty_iff] at he
      refine ⟨?_, ?_, fun _ => rfl, ?_, fun _ => he⟩
      · simp [streamDelivered, streamRead]
      · simp [streamWrote, streamOutput]
      · intro h; rw [hc] at h; cases h

theorem completeFlush_moves (M : Machine σ ε ev ι) {c : StreamConf σ} {n : Nat} (hc : c.ctl = .flushing) :
    Moves M c (completeFlush (ε := ε) (ev := ev) (ι := ι) c n).1 (completeFlush c n).2 := by
  unfold completeFlush
  dsimp only
  split
  · refine ⟨?_, ?_, fun _ => rfl, ?_, ?_⟩ <;> simp [streamDelivered, streamRead, streamWrote, streamOutput]
  · split
    · refine ⟨?_, ?_, fun _ => rfl, ?_, ?_⟩ <;> simp [streamDelivered, streamRead, streamWrote, streamOutput]
    · rename_i he
      rw [List.isEmpty_iff] at he
      refine ⟨?_, ?_, fun _ => rfl, ?_, fun _ => he⟩
      · simp [streamDelivered, streamRead]
      · simp [streamWrote, streamOutput]
      · intro h; rw [hc] at h; cases h

theorem step_moves {M : Machine σ ε ev ι} {c c' : StreamConf σ} {a : StreamAct ι} {T : List (StreamItem ε ev ι)}
    (h : step M c a = some (c', T)) : Moves M c c' T ∧ c.ctl ≠ .dead := by
  cases a with
  | user op =>
    simp only [step] at h
    split at h
    · rename_i hc
      split at h
      · injection h with h
        injection h with h1 h2
        subst h1 h2
        refine ⟨⟨?_, ?_, ?_, ?_, ?_⟩, by simp [hc]⟩ <;> simp [streamDelivered, streamRead, streamWrote, streamOutput]
      · rename_i s hs
        injection h with h
        injection h with h1 h2
        subst h1 h2
        refine ⟨⟨?_, ?_, ?_, ?_, ?_⟩, by simp [hc]⟩
        · simp [streamDelivered, streamRead]
        · simp [streamWrote, streamOutput]
        · simp [Machine.replay, hs]
        · intro h; simp [hc] at h
        · intro h; simp [hc] at h
    · cases h
  | callNext =>
    simp only [step] at h
    split at h
    · rename_i hc
      injection h with h
      injection h with h1 h2
      subst h1 h2
      refine ⟨?_, by simp [hc]⟩
      exact advance_moves (T := [.callNext]) (by simp [streamDelivered, streamRead])
        (by simp [streamWrote, streamOutput]) rfl
    · cases h
  | callFlush =>
    simp only [step] at h
    split at h
    · rename_i hc
      split at h
      · injection h with h
        injection h with h1 h2
        subst h1 h2
        refine ⟨⟨?_, ?_, fun _ => rfl, ?_, ?_⟩, by simp [hc]⟩ <;>
          simp [streamDelivered, streamRead, streamWrote, streamOutput, hc]
      · rename_i he
        rw [List.isEmpty_iff] at he
        injection h with h
        injection h with h1 h2
        subst h1 h2
        refine ⟨⟨?_, ?_, fun _ => rfl, ?_, fun _ => he⟩, by simp [hc]⟩ <;>
          simp [streamDelivered, streamRead, streamWrote, streamOutput]
    · cases h
  | read bytes =>
    simp only [step] at h
    split at h
    all_goals first | cases h | skip
    all_goals
      rename_i hc
      have h1 := completeRead_moves M c bytes
      injection h with h
      rw [h] at h1
      exact ⟨h1, by simp [hc]⟩
  | write n =>
    simp only [step] at h
    split at h
    · split at h
      · rename_i hc
        have h1 := completeWrite_moves M (n := n) hc
        injection h with h
        rw [h] at h1
        exact ⟨h1, by simp [hc]⟩
      · rename_i hc
        have h1 := completeFlush_moves M (n := n) hc
        injection h with h
        rw [h] at h1
        exact ⟨h1, by simp [hc]⟩
      · cases h
    · cases h
  | fail =>
    simp only [step] at h
    split at h
    all_goals first | cases h | skip
    all_goals
      rename_i hc
      refine ⟨⟨?_, ?_, fun _ => rfl, ?_, ?_⟩, by simp [hc]⟩ <;>
        simp [streamDelivered, streamRead, streamWrote, streamOutput]
  | drop =>
    simp only [step] at h
    split at h
    all_goals first | cases h | skip
    all_goals
      rename_i hc
      refine ⟨⟨?_, ?_, fun _ => rfl, ?_, ?_⟩, by simp [hc]⟩ <;>
        simp [streamDelivered, streamRead, streamWrote, streamOutput]

/-- A stream that satisfies the part of the invariant that does not mention what happened. -/
def Ok (c : StreamConf σ) : Prop :=
  (c.ctl = .reading → c.writeBuffer = []) ∧ (c.ctl = .racing ∨ c.ctl = .flushing → c.writeBuffer ≠ [])

theorem run_moves {M : Machine σ ε ev ι} {as : List (StreamAct ι)} {c c' : StreamConf σ}
    {T : List (StreamItem ε ev ι)} (hc : c.Ok) (h : run M c as = some (c', T)) : Moves M c c' T := by
  induction as generalizing c T with
  | nil =>
    simp only [run, Option.some.injEq, Prod.mk.injEq] at h
    obtain ⟨rfl, rfl⟩ := h
    exact ⟨by simp [streamDelivered, streamRead], by simp [streamWrote, streamOutput], fun _ => rfl, hc.1, hc.2⟩
  | cons a as ih =>
    simp only [run] at h
    split at h
    · cases h
    · rename_i c1 T1 hs
      split at h
      · cases h
      · rename_i c2 T2 hr
        cases h
        have h1 := step_moves hs
        have h2 := ih ⟨h1.1.reading, h1.1.racing⟩ hr
        by_cases hd : c1.ctl = .dead
        · cases as with
          | nil =>
            simp only [run, Option.some.injEq, Prod.mk.injEq] at hr
            obtain ⟨rfl, rfl⟩ := hr
            simpa using h1.1
          | cons b bs =>
            simp only [run] at hr
            split at hr
            · cases hr
            · rename_i hs2
              exact ((step_moves hs2).2 hd).elim
        · exact h1.1.trans hd h2

omit [DecidableEq ε] [DecidableEq ev] in
theorem run_append {M : Machine σ ε ev ι} (as bs : List (StreamAct ι)) (c : StreamConf σ) :
    run M c (as ++ bs) = (run M c as).bind fun x => (run M x.1 bs).map fun y => (y.1, x.2 ++ y.2) := by
  induction as generalizing c with
  | nil => simp [run]
  | cons a as ih =>
    simp only [List.cons_append, run]
    cases step M c a with
    | none => rfl
    | some x =>
      obtain ⟨c1, T1⟩ := x
      simp only [ih]
      cases run M c1 as with
      | none => rfl
      | some y =>
        obtain ⟨c2, T2⟩ := y
        simp only [Option.bind_some]
        cases run M c2 bs with
        | none => rfl
        | some z => simp

omit [DecidableEq ε] [DecidableEq ev] in
theorem insecure_ok (s : σ) : (insecure s).Ok := by
  constructor
  · intro h; cases h
  · intro h; rcases h with h | h <;> cases h

end StreamConf

end ImapFlow

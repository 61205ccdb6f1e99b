import Verif.Spec.Net
import Verif.Proofs.ClientTrace
import Verif.Proofs.ServerTrace

/-!
# Without its user, a side makes progress or waits

Weights for the client and for the server that decrease whenever `next` does something.
-/

namespace ImapFlow

variable {L : Lib} {ε μ : Type}

/-! ## Receiving -/

/-- Twice the bytes in the buffer, less the bytes of the current message that were seen. -/
def ReceiveState.weight (s : ReceiveState) : Nat := 2 * s.readBuffer.length - s.seenBytes

theorem ReceiveState.enqueueInput_weight (s : ReceiveState) (b : Bytes) :
    (s.enqueueInput b).weight ≤ s.weight + 2 * b.length := by
  simp only [weight, enqueueInput, List.length_append]
  omega

/-- What one call of `next` does to the weight. -/
def ReceiveState.Progress (s s1 : ReceiveState) (r : Except (Interrupt (ReceiveError ε)) μ) : Prop :=
  s1.readBuffer = s.readBuffer ∧ s1.maxMessageSize = s.maxMessageSize ∧ s1.seenBytes ≤ s1.readBuffer.length ∧
  s.seenBytes ≤ s1.seenBytes ∧ (r ≠ .error (.io .needMoreInput) → 0 < s1.seenBytes) ∧
  (r ≠ .error (.io .needMoreInput) → r ≠ .error (.error .messageTooLong) → s.seenBytes < s1.seenBytes)

/-- Receiving hands out nothing. -/
def NoOutput {α : Type} (r : Except (Interrupt ε) α) : Prop := ∀ b, r ≠ .error (.io (.output b))

theorem ReceiveState.progressLine_noOutput {dec : Decoder ε μ} {s s1 : ReceiveState} {n : Nat}
    {r : Except (Interrupt (ReceiveError ε)) μ} (h : progressLine dec s n = .ok (s1, r)) : NoOutput r := by
  unfold progressLine at h
  simp only at h
  intro b hb
  subst hb
  repeat' split at h
  all_goals first
    | (cases h; done)
    | (simp at h; done)

theorem ReceiveState.next_noOutput {dec : Decoder ε μ} {s s1 : ReceiveState}
    {r : Except (Interrupt (ReceiveError ε)) μ} (h : next dec s = .ok (s1, r)) : NoOutput r := by
  unfold next at h
  split at h
  · exact progressLine_noOutput h
  · split at h
    · cases h
    · rename_i s2 i heq
      intro b hb
      subst hb
      simp only [Except.ok.injEq, Prod.mk.injEq, Except.error.injEq] at h
      obtain ⟨-, rfl⟩ := h
      unfold progressLiteral at heq
      simp only at heq
      repeat' split at heq
      all_goals simp at heq
    · exact progressLine_noOutput h

theorem ReceiveState.progressLine_progress {dec : Decoder ε μ} {s s1 : ReceiveState} {n : Nat}
    {r : Except (Interrupt (ReceiveError ε)) μ} (hmax : s.maxMessageSize ≠ some 0)
    (h : progressLine dec s n = .ok (s1, r)) : Progress s s1 r := by
  unfold progressLine at h
  simp only at h
  split at h
  · cases h
  · rename_i hle
    have hm := s.maxReadableBytes_le
    split at h
    · cases h
    · split at h
      · rename_i heq
        simp only [Except.ok.injEq, Prod.mk.injEq] at h
        obtain ⟨rfl, rfl⟩ := h
        have hpos : s.maxReadableBytes ≠ 0 := fun h0 => hmax (by rw [← heq, h0])
        refine ⟨rfl, rfl, hm, by show _ ≤ s.maxReadableBytes; omega, fun _ => by show 0 < s.maxReadableBytes; omega, ?_⟩
        intro _ h2
        exact absurd rfl h2
      · simp only [Except.ok.injEq, Prod.mk.injEq] at h
        obtain ⟨rfl, rfl⟩ := h
        exact ⟨rfl, rfl, by show s.seenBytes ≤ s.readBuffer.length; omega, Nat.le_refl _, fun h1 => absurd rfl h1, fun h1 => absurd rfl h1⟩
    · rename_i c hc
      obtain ⟨-, hlt⟩ := findCrlf_some_lt hc
      simp only [List.length_drop, List.length_take] at hlt
      have key : s1 = { s with seenBytes := s.seenBytes + (c.lfPosition + 1), nextFragment := .startNewLine } →
          Progress s s1 r := by
        rintro rfl
        refine ⟨rfl, rfl, ?_, ?_, fun _ => ?_, fun _ _ => ?_⟩ <;> simp only <;> omega
      split at h
      · simp only [Except.ok.injEq, Prod.mk.injEq] at h
        exact key h.1.symm
      · split at h
        · split at h
          · simp only [Except.ok.injEq, Prod.mk.injEq] at h
            exact key h.1.symm
          · cases h
        · simp only [Except.ok.injEq, Prod.mk.injEq] at h
          exact key h.1.symm

theorem ReceiveState.next_progress {dec : Decoder ε μ} {s s1 : ReceiveState}
    {r : Except (Interrupt (ReceiveError ε)) μ} (hmax : s.maxMessageSize ≠ some 0)
    (h : next dec s = .ok (s1, r)) : Progress s s1 r := by
  unfold next at h
  split at h
  · exact progressLine_progress hmax h
  · rename_i len _
    have hm := s.maxReadableBytes_le
    split at h
    · cases h
    · rename_i s2 i heq
      simp only [Except.ok.injEq, Prod.mk.injEq] at h
      obtain ⟨rfl, rfl⟩ := h
      unfold progressLiteral at heq
      simp only at heq
      split at heq
      · cases heq
      · split at heq
        · split at heq
          · rename_i h2
            simp only [Except.ok.injEq, Prod.mk.injEq, Except.error.injEq] at heq
            obtain ⟨rfl, rfl⟩ := heq
            have hpos : s.maxReadableBytes ≠ 0 := fun h0 => hmax (by rw [← h2, h0])
            refine ⟨rfl, rfl, hm, by show _ ≤ s.maxReadableBytes; omega, fun _ => by show 0 < s.maxReadableBytes; omega, ?_⟩
            intro _ h2
            exact absurd rfl h2
          · simp only [Except.ok.injEq, Prod.mk.injEq, Except.error.injEq] at heq
            obtain ⟨rfl, rfl⟩ := heq
            exact ⟨rfl, rfl, by omega, Nat.le_refl _, fun h1 => absurd rfl h1, fun h1 => absurd rfl h1⟩
        · simp at heq
    · rename_i s2 heq
      have h2 : s2 = { s with nextFragment := .startNewLine, seenBytes := s.seenBytes + len } := by
        unfold progressLiteral at heq
        simp only at heq
        split at heq
        · cases heq
        · split at heq
          · split at heq <;> simp at heq
          · simp only [Except.ok.injEq, Prod.mk.injEq] at heq
            exact heq.1.symm
      obtain ⟨a1, a2, a3, a4, a5, a6⟩ := progressLine_progress (by rw [h2]; exact hmax) h
      have e1 : s2.readBuffer = s.readBuffer := by rw [h2]
      have e2 : s2.maxMessageSize = s.maxMessageSize := by rw [h2]
      have e3 : s.seenBytes ≤ s2.seenBytes := by rw [h2]; exact Nat.le_add_right _ _
      exact ⟨a1.trans e1, a2.trans e2, a3, by omega, a5, fun h1 h2 => by have := a6 h1 h2; omega⟩

theorem ReceiveState.Progress.le {s s1 : ReceiveState} {r : Except (Interrupt (ReceiveError ε)) μ}
    (h : Progress s s1 r) : s1.weight ≤ s.weight := by
  obtain ⟨a1, -, a3, a4, -⟩ := h
  simp only [weight, a1]
  omega

theorem ReceiveState.Progress.lt {s s1 : ReceiveState} {r : Except (Interrupt (ReceiveError ε)) μ}
    (h : Progress s s1 r) (h1 : r ≠ .error (.io .needMoreInput)) (h2 : r ≠ .error (.error .messageTooLong)) :
    s1.weight < s.weight := by
  obtain ⟨a1, -, a3, -, -, a6⟩ := h
  have := a6 h1 h2
  rw [a1] at a3
  simp only [weight, a1]
  omega

theorem ReceiveState.finishMessage_ok {s s1 : ReceiveState} (h : s.finishMessage = .ok s1) :
    s1 = { s with readBuffer := s.readBuffer.drop s.seenBytes, seenBytes := 0, nextFragment := .startNewLine } := by
  unfold finishMessage at h
  split at h
  · cases h
  · simp only [Except.ok.injEq] at h
    exact h.symm

theorem ReceiveState.discardMessage_ok {s s1 : ReceiveState} {b : Bytes} (h : s.discardMessage = .ok (s1, b)) :
    s1 = { s with readBuffer := s.readBuffer.drop s.seenBytes, seenBytes := 0, nextFragment := .startNewLine } := by
  unfold discardMessage at h
  split at h
  · cases h
  · simp only at h
    split at h
    · cases h
    · rename_i s2 h2
      simp only [Except.ok.injEq, Prod.mk.injEq] at h
      rw [← h.1]
      exact finishMessage_ok h2

/-- After a message was finished or discarded. -/
theorem ReceiveState.Progress.finish {s s1 s2 : ReceiveState} {r : Except (Interrupt (ReceiveError ε)) μ}
    (h : Progress s s1 r) (h1 : r ≠ .error (.io .needMoreInput))
    (h2 : s2 = { s1 with readBuffer := s1.readBuffer.drop s1.seenBytes, seenBytes := 0, nextFragment := .startNewLine }) :
    s2.weight < s.weight ∧ s2.seenBytes = 0 := by
  obtain ⟨a1, -, a3, a4, a5, -⟩ := h
  have := a5 h1
  rw [a1] at a3
  refine ⟨?_, by rw [h2]⟩
  rw [h2]
  simp only [weight, List.length_drop, a1]
  omega

theorem ReceiveState.changeCodec_weight {s : ReceiveState} (h : s.seenBytes = 0) : s.changeCodec.weight = s.weight := by
  simp only [weight, changeCodec, withReadBuffer, h]

/-! ## The client -/

/-- The weight of the input of the client. -/
def Client.inputWeight (c : Client) : Nat :=
  match c.receiveState with
  | .greeting s | .response s => s.weight
  | .dummy => 0

/-- Steps the current message can make before its user is needed. -/
def ClientCurrent.weight : ClientCurrent → Nat
  | .command s =>
    match s.activity with
    | .pushingFragments _ => 3 * s.fragments.length + 3
    | .waitingForFragmentsSent (some _) => 3 * s.fragments.length + 5
    | .waitingForFragmentsSent none => 1
    | .waitingForLiteralAccepted _ => 3 * s.fragments.length + 4
  | .authenticate s =>
    match s.activity with
    | .pushingAuthenticate _ => 6
    | .waitingForAuthenticateSent => 5
    | .pushingAuthenticateData _ => 4
    | .waitingForAuthenticateDataSent => 3
    | .waitingForAuthenticateResponse => 2
    | .waitingForAuthenticateDataSet => 1
  | .idle s =>
    match s.activity with
    | .pushingIdle _ => 6
    | .waitingForIdleSent => 5
    | .waitingForIdleResponse => 4
    | .waitingForIdleDoneSet => 3
    | .pushingIdleDone _ => 2
    | .waitingForIdleDoneSent => 1

theorem ClientCurrent.weight_pos (c : ClientCurrent) : 0 < c.weight := by
  unfold weight
  repeat' split
  all_goals omega

/-- Steps the client can make before its user is needed. -/
def ClientSendState.weight (L : Lib) (s : ClientSendState) : Nat :=
  (s.queuedMessages.map fun q => 3 * (L.encodeCommand q.command).length + 7).sum +
    (s.currentMessage.map ClientCurrent.weight).getD 0

theorem pushFragments_rest (fs : List Fragment) :
    ((pushFragments fs).2.1 = none ∧ (pushFragments fs).2.2 = []) ∨
      ∃ d, (pushFragments fs).2.1 = some d ∧ (pushFragments fs).2.2.length < fs.length := by
  fun_induction pushFragments fs with
  | case1 => exact .inl ⟨rfl, rfl⟩
  | case2 d rest buf limbo rest' h ih =>
    rw [h] at ih
    rcases ih with ih | ⟨x, h1, h2⟩
    · exact .inl ih
    · exact .inr ⟨x, h1, by simp only [List.length_cons]; simp only at h2; omega⟩
  | case3 d rest buf limbo rest' h ih =>
    rw [h] at ih
    rcases ih with ih | ⟨x, h1, h2⟩
    · exact .inl ih
    · exact .inr ⟨x, h1, by simp only [List.length_cons]; simp only at h2; omega⟩
  | case4 d rest => exact .inr ⟨d, rfl, by simp⟩

theorem ClientCurrent.pushToBuffer_weight {c c1 : ClientCurrent} {b : Bytes} (h : c.pushToBuffer = (c1, b)) :
    c1.weight ≤ c.weight ∧ (b ≠ [] → c1.weight < c.weight) := by
  cases c with
  | command s =>
    obtain ⟨hd, cmd, fs, act⟩ := s
    cases act with
    | pushingFragments lit =>
      simp only [pushToBuffer, CommandState.pushToBuffer, Prod.mk.injEq] at h
      obtain ⟨rfl, rfl⟩ := h
      rcases pushFragments_rest fs with ⟨h1, h2⟩ | ⟨d, h1, h2⟩
      · simp only [weight, h1]
        omega
      · have h2' : (pushFragments fs).2.snd.length < fs.length := h2
        generalize (pushFragments fs).2.snd = rest at *
        simp only [weight, h1]
        omega
    | _ =>
      simp only [pushToBuffer, CommandState.pushToBuffer, Prod.mk.injEq] at h
      obtain ⟨rfl, rfl⟩ := h
      exact ⟨Nat.le_refl _, fun hb => absurd rfl hb⟩
  | authenticate s =>
    obtain ⟨hd, cmd, act⟩ := s
    cases act <;>
    · simp only [pushToBuffer, AuthenticateState.pushToBuffer, Prod.mk.injEq] at h
      obtain ⟨rfl, rfl⟩ := h
      simp [weight]
  | idle s =>
    obtain ⟨hd, tag, act⟩ := s
    cases act <;>
    · simp only [pushToBuffer, IdleState.pushToBuffer, Prod.mk.injEq] at h
      obtain ⟨rfl, rfl⟩ := h
      simp [weight]

theorem ClientCurrent.finishSending_weight {c c1 : ClientCurrent} {e : Option ClientSendEvent}
    (h : c.finishSending = .uncompleted c1 e) : c1.weight ≤ c.weight ∧ (e ≠ none → c1.weight < c.weight) := by
  cases c with
  | command s =>
    obtain ⟨hd, cmd, fs, act⟩ := s
    rcases act with lit | (_ | lit) | lit <;>
    · simp only [finishSending, CommandState.finishSending, FinishSendingResult.mapState, FinishSendingResult.uncompleted.injEq,
        reduceCtorEq] at h
      try
        obtain ⟨rfl, rfl⟩ := h
        simp [weight]
  | authenticate s =>
    obtain ⟨hd, cmd, act⟩ := s
    cases act <;>
    · simp only [finishSending, AuthenticateState.finishSending, FinishSendingResult.mapState,
        FinishSendingResult.uncompleted.injEq] at h
      obtain ⟨rfl, rfl⟩ := h
      simp [weight]
  | idle s =>
    obtain ⟨hd, tag, act⟩ := s
    cases act <;>
    · simp only [finishSending, IdleState.finishSending, FinishSendingResult.mapState, FinishSendingResult.uncompleted.injEq,
        reduceCtorEq] at h
      try
        obtain ⟨rfl, rfl⟩ := h
        simp [weight]

theorem ClientQueued.start_weight {q : ClientQueued} {c : ClientCurrent} (h : q.start L = .ok c) :
    c.weight < 3 * (L.encodeCommand q.command).length + 7 := by
  unfold start at h
  simp only at h
  split at h
  · split at h
    · cases h
    · simp only [Except.ok.injEq] at h
      rw [← h]
      simp only [ClientCurrent.weight]
      omega
  · split at h
    · cases h
    · simp only [Except.ok.injEq] at h
      rw [← h]
      simp only [ClientCurrent.weight]
      omega
  · simp only [Except.ok.injEq] at h
    rw [← h]
    simp only [ClientCurrent.weight]
    omega

theorem ClientSendState.progressCurrent_weight {s s1 : ClientSendState} {c : ClientCurrent}
    {r : Except (Interrupt Empty) (Option ClientSendEvent)} (h : s.progressCurrent c = (s1, r)) :
    s1.weight L ≤ ({ s with currentMessage := some c } : ClientSendState).weight L ∧
    (r ≠ .ok none → s1.weight L < ({ s with currentMessage := some c } : ClientSendState).weight L) ∧
    r ≠ .error (.io .needMoreInput) := by
  unfold progressCurrent at h
  cases hp : c.pushToBuffer with
  | mk c1 b =>
    obtain ⟨p1, p2⟩ := ClientCurrent.pushToBuffer_weight hp
    simp only [hp] at h
    split at h
    · cases hf : c1.finishSending with
      | uncompleted c2 e =>
        simp only [hf, Prod.mk.injEq] at h
        obtain ⟨rfl, rfl⟩ := h
        obtain ⟨f1, f2⟩ := ClientCurrent.finishSending_weight hf
        refine ⟨?_, fun hr => ?_, by simp⟩
        · simp only [weight, Option.map_some, Option.getD_some]
          omega
        · have := f2 (fun he => hr (by rw [he]))
          simp only [weight, Option.map_some, Option.getD_some]
          omega
      | completed e =>
        simp only [hf, Prod.mk.injEq] at h
        obtain ⟨rfl, rfl⟩ := h
        have := c.weight_pos
        refine ⟨?_, fun _ => ?_, by simp⟩ <;>
        · simp only [weight, Option.map_some, Option.getD_some, Option.map_none, Option.getD_none]
          omega
    · rename_i hb
      simp only [Prod.mk.injEq] at h
      obtain ⟨rfl, rfl⟩ := h
      have := p2 (by intro h0; rw [h0] at hb; exact hb rfl)
      refine ⟨?_, fun _ => ?_, by simp⟩ <;>
      · simp only [weight, Option.map_some, Option.getD_some]
        omega

theorem ClientSendState.next_weight {s s1 : ClientSendState} {r : Except (Interrupt Empty) (Option ClientSendEvent)}
    (h : s.next L = .ok (s1, r)) :
    s1.weight L ≤ s.weight L ∧ (r ≠ .ok none → s1.weight L < s.weight L) ∧ r ≠ .error (.io .needMoreInput) := by
  obtain ⟨qs, cur⟩ := s
  unfold next at h
  cases cur with
  | some c =>
    simp only [Except.ok.injEq] at h
    exact progressCurrent_weight (L := L) h
  | none =>
    cases qs with
    | nil =>
      simp only [Except.ok.injEq, Prod.mk.injEq] at h
      obtain ⟨rfl, rfl⟩ := h
      exact ⟨Nat.le_refl _, fun h => absurd rfl h, by simp⟩
    | cons q qs =>
      simp only at h
      split at h
      · cases h
      · rename_i c hc
        simp only [Except.ok.injEq] at h
        have hq := ClientQueued.start_weight hc
        obtain ⟨h1, h2, h3⟩ := progressCurrent_weight (L := L) h
        have key : ({ queuedMessages := qs, currentMessage := some c } : ClientSendState).weight L <
            ({ queuedMessages := q :: qs, currentMessage := none } : ClientSendState).weight L := by
          simp only [weight, List.map_cons, List.sum_cons, Option.map_some, Option.getD_some, Option.map_none, Option.getD_none]
          omega
        exact ⟨by simp only at h1; omega, fun hr => by have := h2 hr; simp only at this; omega, h3⟩

theorem Client.progressSend_weight {c c1 : Client} {r : Except (Interrupt ClientError) (Option ClientEvent)}
    (h : c.progressSend L = .ok (c1, r)) :
    c1.sendState.weight L ≤ c.sendState.weight L ∧ (r ≠ .ok none → c1.sendState.weight L < c.sendState.weight L) ∧
      r ≠ .error (.io .needMoreInput) := by
  unfold progressSend at h
  split at h
  · simp only [Except.ok.injEq, Prod.mk.injEq] at h
    obtain ⟨rfl, rfl⟩ := h
    exact ⟨Nat.le_refl _, fun h => absurd rfl h, by simp⟩
  · split at h
    · cases h
    all_goals
      rename_i hn
      simp only [Except.ok.injEq, Prod.mk.injEq] at h
      obtain ⟨rfl, rfl⟩ := h
      obtain ⟨h1, h2, h3⟩ := ClientSendState.next_weight hn
      refine ⟨h1, fun hr => h2 ?_, ?_⟩
      · first
        | (intro he; exact hr rfl)
        | simp
      · first
        | (simp; done)
        | (intro he; apply h3; simp only [Except.error.injEq, Interrupt.io.injEq] at he ⊢; exact he)

theorem dispatchResponse_weight (s : ClientSendState) (r : Response) :
    (dispatchResponse s r).1.weight L ≤ s.weight L := by
  obtain ⟨qs, cur⟩ := s
  have none_le : ∀ c : ClientCurrent, ({ queuedMessages := qs, currentMessage := none } : ClientSendState).weight L ≤
      ({ queuedMessages := qs, currentMessage := some c } : ClientSendState).weight L := fun c => by
    simp only [ClientSendState.weight, Option.map_some, Option.getD_some, Option.map_none, Option.getD_none]
    omega
  cases r with
  | status st =>
    have : (ClientSendState.maybeTerminate { queuedMessages := qs, currentMessage := cur } st).1.weight L ≤
        ({ queuedMessages := qs, currentMessage := cur } : ClientSendState).weight L := by
      unfold ClientSendState.maybeTerminate
      repeat' split
      all_goals first
        | exact Nat.le_refl _
        | (simp only at *; subst_vars; exact none_le _)
    unfold dispatchResponse
    simp only
    split <;> (rename_i hm; rw [hm] at this; exact this)
  | data d => exact Nat.le_refl _
  | continuationRequest q =>
    cases cur with
    | none => exact Nat.le_refl _
    | some c =>
      cases c with
      | command s =>
        obtain ⟨hd, cmd, fs, act⟩ := s
        cases act <;> simp [dispatchResponse, ClientSendState.literalContinue, ClientSendState.authenticateContinue,
          ClientSendState.idleContinue, ClientSendState.weight, ClientCurrent.weight]
      | authenticate s =>
        obtain ⟨hd, cmd, act⟩ := s
        cases act <;> simp [dispatchResponse, ClientSendState.literalContinue, ClientSendState.authenticateContinue,
          ClientSendState.idleContinue, ClientSendState.weight, ClientCurrent.weight]
      | idle s =>
        obtain ⟨hd, cmd, act⟩ := s
        cases act <;> simp [dispatchResponse, ClientSendState.literalContinue, ClientSendState.authenticateContinue,
          ClientSendState.idleContinue, ClientSendState.weight, ClientCurrent.weight]

theorem ReceiveState.Progress.discard {ε' α : Type} {s s1 s2 : ReceiveState} {r : Except (Interrupt (ReceiveError ε)) μ}
    {mk : Bytes → ε'} {r' : Except (Interrupt ε') α} (h : Progress s s1 r) (h1 : r ≠ .error (.io .needMoreInput))
    (h2 : discardWith s1 mk = .ok (s2, r')) :
    s2.weight < s.weight ∧ s2.seenBytes = 0 ∧ s2.maxMessageSize = s.maxMessageSize ∧ NoOutput r' := by
  unfold discardWith at h2
  split at h2
  · cases h2
  · rename_i s3 b hd
    simp only [Except.ok.injEq, Prod.mk.injEq] at h2
    obtain ⟨rfl, rfl⟩ := h2
    have e := discardMessage_ok hd
    obtain ⟨a, b⟩ := h.finish h1 e
    exact ⟨a, b, by rw [e]; exact h.2.1, fun _ => by simp⟩

theorem ReceiveState.Progress.finishWith {ε' α : Type} {s s1 s2 : ReceiveState} {r : Except (Interrupt (ReceiveError ε)) μ}
    {m : α} {r' : Except (Interrupt ε') α} (h : Progress s s1 r) (h1 : r ≠ .error (.io .needMoreInput))
    (h2 : ImapFlow.finishWith s1 m = .ok (s2, r')) :
    s2.weight < s.weight ∧ s2.seenBytes = 0 ∧ s2.maxMessageSize = s.maxMessageSize ∧ NoOutput r' := by
  unfold ImapFlow.finishWith at h2
  split at h2
  · cases h2
  · rename_i s3 hd
    simp only [Except.ok.injEq, Prod.mk.injEq] at h2
    obtain ⟨rfl, rfl⟩ := h2
    have e := finishMessage_ok hd
    obtain ⟨a, b⟩ := h.finish h1 e
    exact ⟨a, b, by rw [e]; exact h.2.1, fun _ => by simp⟩

/-- What receiving does: it waits, or the weight decreases and a new message begins. -/
def Received {ε' α : Type} (s s1 : ReceiveState) (r : Except (Interrupt ε') α) : Prop :=
  s1.maxMessageSize = s.maxMessageSize ∧
  ((r = .error (.io .needMoreInput) ∧ s1.weight ≤ s.weight) ∨
   (s1.weight < s.weight ∧ s1.seenBytes = 0 ∧ NoOutput r))

theorem Received.of_io {ε' α : Type} {s s1 : ReceiveState} {io : Io}
    (hp : ReceiveState.Progress s s1 (.error (.io io) : Except (Interrupt (ReceiveError ε)) μ))
    (hn : NoOutput (.error (.io io) : Except (Interrupt (ReceiveError ε)) μ)) :
    Received s s1 (.error (.io io) : Except (Interrupt ε') α) := by
  cases io with
  | needMoreInput => exact ⟨hp.2.1, .inl ⟨rfl, hp.le⟩⟩
  | output b => exact absurd rfl (hn b)

theorem receiveGreeting_progress {s s1 : ReceiveState} {r : Except (Interrupt ClientError) Greeting}
    (hmax : s.maxMessageSize ≠ some 0) (h : receiveGreeting L s = .ok (s1, r)) : Received s s1 r := by
  unfold receiveGreeting at h
  split at h
  · cases h
  · rename_i s2 g hn
    obtain ⟨a, b, c, d⟩ := (ReceiveState.next_progress hmax hn).finishWith (by simp) h
    exact ⟨c, .inr ⟨a, b, d⟩⟩
  · rename_i s2 io hn
    simp only [Except.ok.injEq, Prod.mk.injEq] at h
    obtain ⟨rfl, rfl⟩ := h
    exact .of_io (ReceiveState.next_progress hmax hn) (ReceiveState.next_noOutput hn)
  · rename_i hn
    obtain ⟨a, b, c, d⟩ := (ReceiveState.next_progress hmax hn).discard (by simp) h
    exact ⟨c, .inr ⟨a, b, d⟩⟩
  · rename_i hn
    obtain ⟨a, b, c, d⟩ := (ReceiveState.next_progress hmax hn).discard (by simp) h
    exact ⟨c, .inr ⟨a, b, d⟩⟩
  · cases h

theorem receiveServerLine_progress {dec : Decoder SimpleDecodeError μ} {s s1 : ReceiveState}
    {r : Except (Interrupt ServerError) μ}
    (hmax : s.maxMessageSize ≠ some 0) (h : receiveServerLine dec s = .ok (s1, r)) : Received s s1 r := by
  unfold receiveServerLine at h
  split at h
  · cases h
  · rename_i s2 g hn
    obtain ⟨a, b, c, d⟩ := (ReceiveState.next_progress hmax hn).finishWith (by simp) h
    exact ⟨c, .inr ⟨a, b, d⟩⟩
  · rename_i s2 io hn
    simp only [Except.ok.injEq, Prod.mk.injEq] at h
    obtain ⟨rfl, rfl⟩ := h
    exact .of_io (ReceiveState.next_progress hmax hn) (ReceiveState.next_noOutput hn)
  all_goals
    rename_i hn
    obtain ⟨a, b, c, d⟩ := (ReceiveState.next_progress hmax hn).discard (by simp) h
    exact ⟨c, .inr ⟨a, b, d⟩⟩

theorem receiveResponse_progress {s s1 : ReceiveState} {r : Except (Interrupt ClientError) Response}
    (hmax : s.maxMessageSize ≠ some 0) (h : receiveResponse L s = .ok (s1, r)) : Received s s1 r := by
  fun_induction receiveResponse L s with
  | case1 => cases h
  | case2 s s2 resp hn =>
    obtain ⟨a, b, c, d⟩ := (ReceiveState.next_progress hmax hn).finishWith (by simp) h
    exact ⟨c, .inr ⟨a, b, d⟩⟩
  | case3 s s2 io hn =>
    simp only [Except.ok.injEq, Prod.mk.injEq] at h
    obtain ⟨rfl, rfl⟩ := h
    exact .of_io (ReceiveState.next_progress hmax hn) (ReceiveState.next_noOutput hn)
  | case4 s s2 len hn ih =>
    have hp := ReceiveState.next_progress hmax hn
    have hlt := hp.lt (by simp) (by simp)
    obtain ⟨a, b⟩ := ih (by show s2.maxMessageSize ≠ _; rw [hp.2.1]; exact hmax) h
    have hw : (s2.startLiteral len).weight = s2.weight := rfl
    rw [hw] at b
    refine ⟨a.trans hp.2.1, ?_⟩
    rcases b with ⟨b1, b2⟩ | ⟨b1, b2, b3⟩
    · exact .inl ⟨b1, by omega⟩
    · exact .inr ⟨by omega, b2, b3⟩
  | case5 s s2 hn =>
    obtain ⟨a, b, c, d⟩ := (ReceiveState.next_progress hmax hn).discard (by simp) h
    exact ⟨c, .inr ⟨a, b, d⟩⟩
  | case6 s s2 hn =>
    obtain ⟨a, b, c, d⟩ := (ReceiveState.next_progress hmax hn).discard (by simp) h
    exact ⟨c, .inr ⟨a, b, d⟩⟩
  | case7 s s2 hn =>
    obtain ⟨a, b, c, d⟩ := (ReceiveState.next_progress hmax hn).discard (by simp) h
    exact ⟨c, .inr ⟨a, b, d⟩⟩
  | case8 => cases h

/-- The client has no limit. -/
def Client.Unlimited (c : Client) : Prop :=
  match c.receiveState with
  | .greeting s | .response s => s.maxMessageSize ≠ some 0
  | .dummy => False

theorem Client.progressReceive_weight {c c1 : Client} {r : Except (Interrupt ClientError) (Option ClientEvent)}
    (hmax : c.Unlimited) (h : c.progressReceive L = .ok (c1, r)) :
    c1.Unlimited ∧ c1.sendState.weight L ≤ c.sendState.weight L ∧
    ((r = .error (.io .needMoreInput) ∧ c1.inputWeight ≤ c.inputWeight) ∨
     (c1.inputWeight < c.inputWeight ∧ NoOutput r)) := by
  obtain ⟨g, snd, rcv⟩ := c
  unfold progressReceive at h
  cases rcv with
  | greeting s =>
    simp only at h
    split at h
    · cases h
    · rename_i s1 i hr
      simp only [Except.ok.injEq, Prod.mk.injEq] at h
      obtain ⟨rfl, rfl⟩ := h
      obtain ⟨a, b⟩ := receiveGreeting_progress hmax hr
      refine ⟨by show s1.maxMessageSize ≠ _; rw [a]; exact hmax, Nat.le_refl _, ?_⟩
      rcases b with ⟨b1, b2⟩ | ⟨b1, b2, b3⟩
      · cases b1
        exact .inl ⟨rfl, b2⟩
      · refine .inr ⟨b1, fun b hb => b3 b ?_⟩
        cases hb; rfl
    · rename_i s1 gr hr
      obtain ⟨a, b⟩ := receiveGreeting_progress hmax hr
      rcases b with ⟨b1, b2⟩ | ⟨b1, b2, b3⟩
      · cases b1
      · simp only [ClientReceiveState.changeState, Except.ok.injEq, Prod.mk.injEq] at h
        obtain ⟨rfl, rfl⟩ := h
        refine ⟨by show s1.maxMessageSize ≠ _; rw [a]; exact hmax, Nat.le_refl _, .inr ⟨?_, fun b => by simp⟩⟩
        show s1.changeCodec.weight < s.weight
        rw [ReceiveState.changeCodec_weight b2]
        exact b1
  | response s =>
    simp only at h
    split at h
    · cases h
    · rename_i s1 i hr
      simp only [Except.ok.injEq, Prod.mk.injEq] at h
      obtain ⟨rfl, rfl⟩ := h
      obtain ⟨a, b⟩ := receiveResponse_progress hmax hr
      refine ⟨by show s1.maxMessageSize ≠ _; rw [a]; exact hmax, Nat.le_refl _, ?_⟩
      rcases b with ⟨b1, b2⟩ | ⟨b1, b2, b3⟩
      · cases b1
        exact .inl ⟨rfl, b2⟩
      · refine .inr ⟨b1, fun b hb => b3 b ?_⟩
        cases hb; rfl
    · rename_i s1 resp hr
      obtain ⟨a, b⟩ := receiveResponse_progress hmax hr
      simp only [Except.ok.injEq, Prod.mk.injEq] at h
      obtain ⟨rfl, rfl⟩ := h
      rcases b with ⟨b1, b2⟩ | ⟨b1, b2, b3⟩
      · cases b1
      · exact ⟨by show s1.maxMessageSize ≠ _; rw [a]; exact hmax, dispatchResponse_weight snd resp,
          .inr ⟨b1, fun b => by simp⟩⟩
  | dummy => cases h

/-- A call of `next` of the client spends weight of its sending side; or it hands out nothing and spends
weight of its input; or it waits. -/
theorem Client.nextTrace_weight {c c1 : Client} {T : List CItem} (hmax : c.Unlimited)
    (h : c.nextTrace L = .ok (c1, T)) :
    c1.Unlimited ∧
    (c1.sendState.weight L < c.sendState.weight L ∨
     (c1.sendState.weight L = c.sendState.weight L ∧ clientOutput T = [] ∧
      (c1.inputWeight < c.inputWeight ∨ (c1.inputWeight = c.inputWeight ∧ T = [.starved])))) := by
  generalize hn : c.unread = n
  induction n using Nat.strongRecOn generalizing c T with
  | _ n ih =>
    rw [nextTrace_eq] at h
    cases hs : progressSend L c with
    | error p => simp [hs] at h
    | ok x =>
      obtain ⟨c2, r⟩ := x
      have h1 := Client.progressSend_unread hs
      have hu : c2.Unlimited := by simp only [Client.Unlimited, h1]; exact hmax
      have hw : c2.inputWeight = c.inputWeight := by simp only [Client.inputWeight, h1]
      obtain ⟨s1, s2, s3⟩ := progressSend_weight hs
      rcases r with (⟨_ | b⟩ | e) | _ | ev
      · exact absurd rfl s3
      · simp only [hs, Except.ok.injEq, Prod.mk.injEq] at h
        obtain ⟨rfl, rfl⟩ := h
        exact ⟨hu, .inl (s2 (by simp))⟩
      · simp only [hs, Except.ok.injEq, Prod.mk.injEq] at h
        obtain ⟨rfl, rfl⟩ := h
        exact ⟨hu, .inl (s2 (by simp))⟩
      · simp only [hs] at h
        cases hr : progressReceive L c2 with
        | error p => simp [hr] at h
        | ok x =>
          obtain ⟨c3, r⟩ := x
          obtain ⟨r1, r2, r3⟩ := progressReceive_weight (L := L) hu hr
          rcases r with (⟨_ | b⟩ | e) | _ | ev
          · simp only [hr, Except.ok.injEq, Prod.mk.injEq] at h
            obtain ⟨rfl, rfl⟩ := h
            refine ⟨r1, ?_⟩
            rcases r3 with ⟨-, r4⟩ | ⟨r4, -⟩
            · rcases Nat.lt_or_ge (c3.sendState.weight L) (c.sendState.weight L) with hl | hl
              · exact .inl hl
              · refine .inr ⟨by omega, rfl, ?_⟩
                rcases Nat.lt_or_ge c3.inputWeight c.inputWeight with hl | hl
                · exact .inl hl
                · exact .inr ⟨by omega, rfl⟩
            · rcases Nat.lt_or_ge (c3.sendState.weight L) (c.sendState.weight L) with hl | hl
              · exact .inl hl
              · exact .inr ⟨by omega, rfl, .inl (by omega)⟩
          · rcases r3 with ⟨r4, -⟩ | ⟨-, r4⟩
            · cases r4
            · exact absurd rfl (r4 b)
          · simp only [hr, Except.ok.injEq, Prod.mk.injEq] at h
            obtain ⟨rfl, rfl⟩ := h
            refine ⟨r1, ?_⟩
            rcases r3 with ⟨r4, -⟩ | ⟨r4, -⟩
            · cases r4
            · rcases Nat.lt_or_ge (c3.sendState.weight L) (c.sendState.weight L) with hl | hl
              · exact .inl hl
              · exact .inr ⟨by omega, rfl, .inl (by omega)⟩
          · have h2 := Client.progressReceive_unread hr
            have h3 : c2.unread = c.unread := by simp [Client.unread, h1]
            have hlt : c3.inputWeight < c.inputWeight := by
              rcases r3 with ⟨r4, -⟩ | ⟨r4, -⟩
              · cases r4
              · omega
            simp only [hr] at h
            cases ht : nextTrace L c3 with
            | error p => simp [ht] at h
            | ok y =>
              obtain ⟨c4, items⟩ := y
              simp only [ht, Except.ok.injEq, Prod.mk.injEq] at h
              obtain ⟨rfl, rfl⟩ := h
              obtain ⟨i1, i2⟩ := ih _ (by omega) r1 ht rfl
              refine ⟨i1, ?_⟩
              rcases i2 with i2 | ⟨i2, i3, i4⟩
              · exact .inl (by omega)
              · rcases Nat.lt_or_ge (c4.sendState.weight L) (c.sendState.weight L) with hl | hl
                · exact .inl hl
                · refine .inr ⟨by omega, ?_, .inl (by omega)⟩
                  simpa [clientOutput, CItem.outputs] using i3
          · simp only [hr, Except.ok.injEq, Prod.mk.injEq] at h
            obtain ⟨rfl, rfl⟩ := h
            refine ⟨r1, ?_⟩
            rcases r3 with ⟨r4, -⟩ | ⟨r4, -⟩
            · cases r4
            · rcases Nat.lt_or_ge (c3.sendState.weight L) (c.sendState.weight L) with hl | hl
              · exact .inl hl
              · exact .inr ⟨by omega, rfl, .inl (by omega)⟩
      · simp only [hs, Except.ok.injEq, Prod.mk.injEq] at h
        obtain ⟨rfl, rfl⟩ := h
        exact ⟨hu, .inl (s2 (by simp))⟩

/-! ## The server -/

/-- The weight of the input of the server. -/
def Server.inputWeight (s : Server) : Nat :=
  match s.receiveState with
  | .command st | .authenticateData st | .idleAccept st | .idleDone st => st.weight
  | .dummy => 0

/-- Steps the server can make to send what is queued. -/
def ServerSendState.weight (s : ServerSendState) : Nat :=
  2 * s.queuedMessages.length + s.currentMessage.toList.length

/-- The server accepts messages of some length. -/
def Server.Limited (s : Server) : Prop :=
  match s.receiveState with
  | .command st | .authenticateData st | .idleAccept st | .idleDone st => st.maxMessageSize ≠ some 0
  | .dummy => False

theorem Server.progressSend_weight {s s1 : Server} {r : Except (Interrupt ServerError) (Option ServerEvent)}
    (h : s.progressSend L = (s1, r)) :
    s1.sendState.weight ≤ s.sendState.weight ∧ (r ≠ .ok none → s1.sendState.weight < s.sendState.weight) ∧
      (s.sendState.currentMessage.isSome → s1.sendState.weight < s.sendState.weight) ∧
      r ≠ .error (.io .needMoreInput) := by
  obtain ⟨o, g, ⟨qs, cur⟩, rcv⟩ := s
  unfold progressSend ServerSendState.next at h
  cases cur with
  | some m =>
    rcases m with gr | ⟨_ | hd, resp⟩ <;>
    · simp only [Prod.mk.injEq] at h
      obtain ⟨rfl, rfl⟩ := h
      simp [ServerSendState.weight]
  | none =>
    cases qs with
    | nil =>
      simp only [Prod.mk.injEq] at h
      obtain ⟨rfl, rfl⟩ := h
      simp [ServerSendState.weight]
    | cons m qs =>
      simp only [Prod.mk.injEq] at h
      obtain ⟨rfl, rfl⟩ := h
      simp [ServerSendState.weight]
      omega

theorem Server.progressReceive_weight {s s1 : Server} {r : Except (Interrupt ServerError) (Option ServerEvent)}
    (hmax : s.Limited) (h : s.progressReceive L = .ok (s1, r)) :
    s1.Limited ∧
    ((r = .error (.io .needMoreInput) ∧ s1.inputWeight ≤ s.inputWeight ∧ s1.sendState = s.sendState) ∨
     (s1.inputWeight < s.inputWeight ∧ NoOutput r)) := by
  obtain ⟨o, g, snd, rcv⟩ := s
  unfold progressReceive at h
  cases rcv with
  | command st =>
    simp only at h
    have discard : ∀ {st1 : ReceiveState} {e : ReceiveError CommandDecodeError} {mk : Bytes → ServerError},
        st.next L.decodeCommand = .ok (st1, .error (.error e)) →
        discardCommand { options := o, handleGenerator := g, sendState := snd, receiveState := .command st } st1 mk = .ok (s1, r) →
        s1.Limited ∧ s1.inputWeight < st.weight ∧ NoOutput r := by
      intro st1 e mk hn hd
      have hp := ReceiveState.next_progress hmax hn
      unfold discardCommand at hd
      split at hd
      · cases hd
      · rename_i st2 b hb
        simp only [Except.ok.injEq, Prod.mk.injEq] at hd
        obtain ⟨rfl, rfl⟩ := hd
        have e := ReceiveState.discardMessage_ok hb
        obtain ⟨a, -⟩ := hp.finish (by simp) e
        exact ⟨by show st2.maxMessageSize ≠ _; rw [e]; show st1.maxMessageSize ≠ _; rw [hp.2.1]; exact hmax, a, fun b => by simp⟩
    split at h
    · cases h
    · rename_i st1 cmd hn
      have hp := ReceiveState.next_progress hmax hn
      unfold commandDecoded at h
      split at h
      · cases h
      · rename_i st2 hf
        have e := ReceiveState.finishMessage_ok hf
        obtain ⟨a, b⟩ := hp.finish (by simp) e
        have hm : st2.maxMessageSize ≠ some 0 := by rw [e]; show st1.maxMessageSize ≠ _; rw [hp.2.1]; exact hmax
        have hc := ReceiveState.changeCodec_weight b
        split at h
        · simp only [ServerReceiveState.changeState, Except.ok.injEq, Prod.mk.injEq] at h
          obtain ⟨rfl, rfl⟩ := h
          refine ⟨hm, .inr ⟨?_, fun b => by simp⟩⟩
          show st2.changeCodec.weight < st.weight
          omega
        · simp only [ServerReceiveState.changeState, Except.ok.injEq, Prod.mk.injEq] at h
          obtain ⟨rfl, rfl⟩ := h
          refine ⟨hm, .inr ⟨?_, fun b => by simp⟩⟩
          show st2.changeCodec.weight < st.weight
          omega
        · simp only [Except.ok.injEq, Prod.mk.injEq] at h
          obtain ⟨rfl, rfl⟩ := h
          exact ⟨hm, .inr ⟨a, fun b => by simp⟩⟩
    · rename_i st1 io hn
      simp only [Except.ok.injEq, Prod.mk.injEq] at h
      obtain ⟨rfl, rfl⟩ := h
      have hp := ReceiveState.next_progress hmax hn
      refine ⟨by show st1.maxMessageSize ≠ _; rw [hp.2.1]; exact hmax, ?_⟩
      cases io with
      | needMoreInput => exact .inl ⟨rfl, hp.le, rfl⟩
      | output b => exact absurd rfl (ReceiveState.next_noOutput hn b)
    · rename_i st1 tag len mode hn
      have hp := ReceiveState.next_progress hmax hn
      have hm : st1.maxMessageSize ≠ some 0 := by rw [hp.2.1]; exact hmax
      have hlt := hp.lt (by simp) (by simp)
      unfold literalFound at h
      split at h
      · have fin : ∀ {st2 : ReceiveState} {b : Bytes}, st1.discardMessage = .ok (st2, b) →
            st2.maxMessageSize ≠ some 0 ∧ st2.weight < st.weight := fun hb => by
          have e := ReceiveState.discardMessage_ok hb
          obtain ⟨a, -⟩ := hp.finish (by simp) e
          exact ⟨by rw [e]; exact hm, a⟩
        split at h
        · split at h
          · cases h
          · simp only at h
            split at h
            · cases h
            · rename_i hb
              simp only [Except.ok.injEq, Prod.mk.injEq] at h
              obtain ⟨rfl, rfl⟩ := h
              exact ⟨(fin hb).1, .inr ⟨(fin hb).2, fun b => by simp⟩⟩
        · split at h
          · cases h
          · rename_i hb
            simp only [Except.ok.injEq, Prod.mk.injEq] at h
            obtain ⟨rfl, rfl⟩ := h
            exact ⟨(fin hb).1, .inr ⟨(fin hb).2, fun b => by simp⟩⟩
      · simp only at h
        split at h
        · split at h
          · cases h
          · split at h
            · cases h
            · simp only [Except.ok.injEq, Prod.mk.injEq] at h
              obtain ⟨rfl, rfl⟩ := h
              exact ⟨hm, .inr ⟨hlt, fun b => by simp⟩⟩
        · simp only [Except.ok.injEq, Prod.mk.injEq] at h
          obtain ⟨rfl, rfl⟩ := h
          exact ⟨hm, .inr ⟨hlt, fun b => by simp⟩⟩
    all_goals
      rename_i hn
      obtain ⟨a, b⟩ := discard hn h
      exact ⟨a, .inr b⟩
  | authenticateData st =>
    simp only at h
    split at h
    · cases h
    · rename_i s1 i hr
      simp only [Except.ok.injEq, Prod.mk.injEq] at h
      obtain ⟨rfl, rfl⟩ := h
      obtain ⟨a, b⟩ := receiveServerLine_progress hmax hr
      refine ⟨by show s1.maxMessageSize ≠ _; rw [a]; exact hmax, ?_⟩
      rcases b with ⟨b1, b2⟩ | ⟨b1, b2, b3⟩
      · cases b1
        exact .inl ⟨rfl, b2, rfl⟩
      · refine .inr ⟨b1, fun b hb => b3 b ?_⟩
        cases hb; rfl
    · rename_i s1 d hr
      simp only [Except.ok.injEq, Prod.mk.injEq] at h
      obtain ⟨rfl, rfl⟩ := h
      obtain ⟨a, b⟩ := receiveServerLine_progress hmax hr
      refine ⟨by show s1.maxMessageSize ≠ _; rw [a]; exact hmax, ?_⟩
      rcases b with ⟨b1, b2⟩ | ⟨b1, b2, b3⟩
      · cases b1
      · exact .inr ⟨b1, fun b => by simp⟩
  | idleAccept st =>
    simp only [Except.ok.injEq, Prod.mk.injEq] at h
    obtain ⟨rfl, rfl⟩ := h
    exact ⟨hmax, .inl ⟨rfl, Nat.le_refl _, rfl⟩⟩
  | idleDone st =>
    simp only at h
    split at h
    · cases h
    · rename_i s1 i hr
      simp only [Except.ok.injEq, Prod.mk.injEq] at h
      obtain ⟨rfl, rfl⟩ := h
      obtain ⟨a, b⟩ := receiveServerLine_progress hmax hr
      refine ⟨by show s1.maxMessageSize ≠ _; rw [a]; exact hmax, ?_⟩
      rcases b with ⟨b1, b2⟩ | ⟨b1, b2, b3⟩
      · cases b1
        exact .inl ⟨rfl, b2, rfl⟩
      · refine .inr ⟨b1, fun b hb => b3 b ?_⟩
        cases hb; rfl
    · rename_i s1 hr
      obtain ⟨a, b⟩ := receiveServerLine_progress hmax hr
      simp only [ServerReceiveState.changeState, Except.ok.injEq, Prod.mk.injEq] at h
      obtain ⟨rfl, rfl⟩ := h
      refine ⟨by show s1.maxMessageSize ≠ _; rw [a]; exact hmax, ?_⟩
      rcases b with ⟨b1, b2⟩ | ⟨b1, b2, b3⟩
      · cases b1
      · refine .inr ⟨?_, fun b => by simp⟩
        show s1.changeCodec.weight < st.weight
        rw [ReceiveState.changeCodec_weight b2]
        exact b1
  | dummy => cases h

/-- A call of `next` of the server spends weight of its input; or weight of its sending side; or it waits. -/
theorem Server.nextTrace_weight {s s1 : Server} {T : List SItem} (hmax : s.Limited)
    (h : s.nextTrace L = .ok (s1, T)) :
    s1.Limited ∧
    (s1.inputWeight < s.inputWeight ∨
     (s1.inputWeight = s.inputWeight ∧
      (s1.sendState.weight < s.sendState.weight ∨ (s1.sendState.weight = s.sendState.weight ∧ T = [.starved])))) := by
  generalize hn : s.unread = n
  induction n using Nat.strongRecOn generalizing s T with
  | _ n ih =>
    rw [nextTrace_eq] at h
    cases hs : progressSend L s with
    | mk s2 r =>
      have h1 := Server.progressSend_receiveState hs
      have hu : s2.Limited := by simp only [Server.Limited, h1]; exact hmax
      have hw : s2.inputWeight = s.inputWeight := by simp only [Server.inputWeight, h1]
      obtain ⟨w1, w2, w3, w4⟩ := progressSend_weight hs
      rcases r with (⟨_ | b⟩ | e) | _ | ev
      · exact absurd rfl w4
      · simp only [hs, Except.ok.injEq, Prod.mk.injEq] at h
        obtain ⟨rfl, rfl⟩ := h
        exact ⟨hu, .inr ⟨hw, .inl (w2 (by simp))⟩⟩
      · simp only [hs, Except.ok.injEq, Prod.mk.injEq] at h
        obtain ⟨rfl, rfl⟩ := h
        exact ⟨hu, .inr ⟨hw, .inl (w2 (by simp))⟩⟩
      · simp only [hs] at h
        cases hr : progressReceive L s2 with
        | error p => simp [hr] at h
        | ok x =>
          obtain ⟨s3, r⟩ := x
          obtain ⟨r1, r3⟩ := progressReceive_weight (L := L) hu hr
          rcases r with (⟨_ | b⟩ | e) | _ | ev
          · simp only [hr, Except.ok.injEq, Prod.mk.injEq] at h
            obtain ⟨rfl, rfl⟩ := h
            refine ⟨r1, ?_⟩
            rcases r3 with ⟨-, r4, r5⟩ | ⟨r4, -⟩
            · rcases Nat.lt_or_ge s3.inputWeight s.inputWeight with hl | hl
              · exact .inl hl
              · refine .inr ⟨by omega, ?_⟩
                rw [r5]
                cases hc : s.sendState.currentMessage.isSome with
                | true => exact .inl (w3 hc)
                | false =>
                  rcases Nat.lt_or_ge s2.sendState.weight s.sendState.weight with hl | hl
                  · exact .inl hl
                  · refine .inr ⟨by omega, ?_⟩
                    simp [quietItems, hc]
            · exact .inl (by omega)
          · rcases r3 with ⟨r4, -⟩ | ⟨-, r4⟩
            · cases r4
            · exact absurd rfl (r4 b)
          · simp only [hr, Except.ok.injEq, Prod.mk.injEq] at h
            obtain ⟨rfl, rfl⟩ := h
            refine ⟨r1, ?_⟩
            rcases r3 with ⟨r4, -⟩ | ⟨r4, -⟩
            · cases r4
            · exact .inl (by omega)
          · have h2 := Server.progressReceive_unread hr
            have h3 : s2.unread = s.unread := by simp [Server.unread, h1]
            have hlt : s3.inputWeight < s.inputWeight := by
              rcases r3 with ⟨r4, -⟩ | ⟨r4, -⟩
              · cases r4
              · omega
            simp only [hr] at h
            cases ht : nextTrace L s3 with
            | error p => simp [ht] at h
            | ok y =>
              obtain ⟨s4, items⟩ := y
              simp only [ht, Except.ok.injEq, Prod.mk.injEq] at h
              obtain ⟨rfl, rfl⟩ := h
              obtain ⟨i1, i2⟩ := ih _ (by omega) r1 ht rfl
              refine ⟨i1, .inl ?_⟩
              rcases i2 with i2 | ⟨i2, -⟩ <;> omega
          · simp only [hr, Except.ok.injEq, Prod.mk.injEq] at h
            obtain ⟨rfl, rfl⟩ := h
            refine ⟨r1, ?_⟩
            rcases r3 with ⟨r4, -⟩ | ⟨r4, -⟩
            · cases r4
            · exact .inl (by omega)
      · simp only [hs, Except.ok.injEq, Prod.mk.injEq] at h
        obtain ⟨rfl, rfl⟩ := h
        exact ⟨hu, .inr ⟨hw, .inl (w2 (by simp))⟩⟩

/-! ## Input -/

theorem Client.enqueueInput_weight {c c1 : Client} {b : Bytes} (h : c.enqueueInput b = .ok c1) :
    c1.inputWeight ≤ c.inputWeight + 2 * b.length ∧ c1.sendState = c.sendState ∧ (c.Unlimited → c1.Unlimited) := by
  obtain ⟨g, snd, rcv⟩ := c
  unfold enqueueInput at h
  cases rcv with
  | greeting s => cases h; exact ⟨s.enqueueInput_weight b, rfl, id⟩
  | response s => cases h; exact ⟨s.enqueueInput_weight b, rfl, id⟩
  | dummy => cases h

theorem Client.enqueueInput_nil {c c1 : Client} (h : c.enqueueInput [] = .ok c1) : c1 = c := by
  obtain ⟨g, snd, rcv⟩ := c
  unfold enqueueInput at h
  cases rcv with
  | greeting s => cases h; simp [ReceiveState.enqueueInput]
  | response s => cases h; simp [ReceiveState.enqueueInput]
  | dummy => cases h

theorem Server.enqueueInput_weight {s s1 : Server} {b : Bytes} (h : s.enqueueInput b = .ok s1) :
    s1.inputWeight ≤ s.inputWeight + 2 * b.length ∧ s1.sendState = s.sendState ∧ (s.Limited → s1.Limited) := by
  obtain ⟨o, g, snd, rcv⟩ := s
  unfold enqueueInput at h
  cases rcv with
  | dummy => cases h
  | _ st => cases h; exact ⟨st.enqueueInput_weight b, rfl, id⟩

theorem Server.enqueueInput_nil {s s1 : Server} (h : s.enqueueInput [] = .ok s1) : s1 = s := by
  obtain ⟨o, g, snd, rcv⟩ := s
  unfold enqueueInput at h
  cases rcv with
  | dummy => cases h
  | _ st => cases h; simp [ReceiveState.enqueueInput]

end ImapFlow

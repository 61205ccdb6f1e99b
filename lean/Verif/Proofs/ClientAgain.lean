import Verif.Proofs.ClientLiteral

/-!
# `NeedMoreInput` is stable
-/

namespace ImapFlow

variable {L : Lib}

/-! ## A call of `next` that asks for more input can be repeated -/

theorem ReceiveState.next_again {ε μ : Type} {dec : Decoder ε μ} {s s' : ReceiveState}
    (h : s.next dec = .ok (s', .error (.io .needMoreInput))) : s'.next dec = .ok (s', .error (.io .needMoreInput)) := by
  have line : ∀ {s : ReceiveState} {k : Nat}, s.progressLine dec k = .ok (s', .error (.io .needMoreInput)) →
      s'.next dec = .ok (s', .error (.io .needMoreInput)) := by
    intro s k h
    unfold progressLine at h
    simp only at h
    split at h
    · cases h
    · rename_i h1
      split at h
      · cases h
      · split at h
        · cases h
        · rename_i h2
          cases h
          have hm : ({ s with nextFragment := .line (s.readBuffer.length - s.seenBytes) } : ReceiveState).maxReadableBytes =
              s.maxReadableBytes := rfl
          have hle : s.maxReadableBytes = s.readBuffer.length := by
            unfold maxReadableBytes at h2 ⊢
            split
            · rfl
            · rename_i size hs
              rw [hs] at h2
              simp only [Option.some.injEq] at h2
              omega
          unfold next progressLine
          simp only [hm]
          rw [if_neg h1, hle]
          simp only [List.take_length]
          unfold findCrlf
          rw [if_neg (by simp)]
          have : (List.drop (s.readBuffer.length - s.seenBytes) (s.readBuffer.drop s.seenBytes)) = [] := by
            rw [List.drop_eq_nil_iff]; simp
          rw [this]
          simp only [List.findIdx?_nil]
          rw [if_neg]
          rw [hle] at h2
          exact h2
      · split at h
        · cases h
        · split at h
          · split at h <;> cases h
          · cases h
  unfold next at h
  split at h
  · exact line h
  · rename_i n hn
    split at h
    · cases h
    · rename_i s1 i h1
      cases h
      have h1' := h1
      unfold progressLiteral at h1
      simp only at h1
      split at h1
      · cases h1
      · split at h1
        · split at h1
          · cases h1
          · cases h1
            unfold next
            rw [hn]
            simp only [h1']
        · cases h1
    · exact line h

theorem receiveGreeting_again {s s' : ReceiveState} (h : receiveGreeting L s = .ok (s', .error (.io .needMoreInput))) :
    receiveGreeting L s' = .ok (s', .error (.io .needMoreInput)) := by
  unfold receiveGreeting at h
  split at h
  · cases h
  · unfold finishWith at h; split at h <;> cases h
  · rename_i io h1
    cases h
    unfold receiveGreeting
    rw [ReceiveState.next_again h1]
  · unfold discardWith at h; split at h <;> cases h
  · unfold discardWith at h; split at h <;> cases h
  · cases h

theorem receiveResponse_again {s s' : ReceiveState} (h : receiveResponse L s = .ok (s', .error (.io .needMoreInput))) :
    receiveResponse L s' = .ok (s', .error (.io .needMoreInput)) := by
  fun_induction receiveResponse L s with
  | case1 | case8 => cases h
  | case2 => unfold finishWith at h; split at h <;> cases h
  | case3 s s1 io h1 =>
    cases h
    have := ReceiveState.next_again h1
    unfold receiveResponse
    split <;> rename_i h2 <;> rw [this] at h2 <;> cases h2
    rfl
  | case4 s s1 n h1 ih => exact ih h
  | _ => unfold discardWith at h; split at h <;> cases h

theorem ClientSendState.progress_again {s s' : ClientSendState} {cur : ClientCurrent}
    (h : s.progressCurrent cur = (s', .ok none)) :
    ∃ cur', s'.currentMessage = some cur' ∧ s'.progressCurrent cur' = (s', .ok none) := by
  unfold progressCurrent at h
  simp only at h
  split at h
  · split at h
    · rename_i cur' ev h1
      cases h
      refine ⟨cur', rfl, ?_⟩
      cases hc : cur.pushToBuffer.1 with
      | command st =>
        rw [hc] at h1
        simp only [ClientCurrent.finishSending, CommandState.finishSending] at h1
        split at h1
        · cases h1; rfl
        · cases h1
        · rename_i h2 h3
          cases h1
          unfold progressCurrent
          cases ha : st.activity with
          | pushingFragments o =>
            exfalso
            cases cur with
            | command st0 =>
              simp only [ClientCurrent.pushToBuffer, CommandState.pushToBuffer] at hc
              split at hc <;> cases hc
              · cases ha
              · rename_i hx; exact hx o ha
            | authenticate st0 => simp [ClientCurrent.pushToBuffer] at hc
            | idle st0 => simp [ClientCurrent.pushToBuffer] at hc
          | waitingForFragmentsSent o =>
            cases o with
            | none => exact (h3 ha).elim
            | some l => exact (h2 l ha).elim
          | waitingForLiteralAccepted l =>
            simp [ClientCurrent.pushToBuffer, CommandState.pushToBuffer, ha, ClientCurrent.finishSending,
              CommandState.finishSending, FinishSendingResult.mapState]
      | authenticate st =>
        rw [hc] at h1
        simp only [ClientCurrent.finishSending, AuthenticateState.finishSending] at h1
        split at h1
        · cases h1
        · cases h1; rfl
        · rename_i h2 h3
          cases h1
          unfold progressCurrent
          cases ha : st.activity with
          | pushingAuthenticate o =>
            exfalso
            cases cur with
            | authenticate st0 =>
              simp only [ClientCurrent.pushToBuffer, AuthenticateState.pushToBuffer] at hc
              split at hc <;> cases hc
              · cases ha
              · cases ha
              · rename_i hx hy; exact hx o ha
            | command st0 => simp [ClientCurrent.pushToBuffer] at hc
            | idle st0 => simp [ClientCurrent.pushToBuffer] at hc
          | pushingAuthenticateData o =>
            exfalso
            cases cur with
            | authenticate st0 =>
              simp only [ClientCurrent.pushToBuffer, AuthenticateState.pushToBuffer] at hc
              split at hc <;> cases hc
              · cases ha
              · cases ha
              · rename_i hx hy; exact hy o ha
            | command st0 => simp [ClientCurrent.pushToBuffer] at hc
            | idle st0 => simp [ClientCurrent.pushToBuffer] at hc
          | waitingForAuthenticateSent => exact (h2 ha).elim
          | waitingForAuthenticateDataSent => exact (h3 ha).elim
          | _ =>
            simp [ClientCurrent.pushToBuffer, AuthenticateState.pushToBuffer, ha, ClientCurrent.finishSending,
              AuthenticateState.finishSending, FinishSendingResult.mapState]
      | idle st =>
        rw [hc] at h1
        simp only [ClientCurrent.finishSending, IdleState.finishSending] at h1
        split at h1
        · cases h1
        · cases h1
        · rename_i h2 h3
          cases h1
          unfold progressCurrent
          cases ha : st.activity with
          | pushingIdle o =>
            exfalso
            cases cur with
            | idle st0 =>
              simp only [ClientCurrent.pushToBuffer, IdleState.pushToBuffer] at hc
              split at hc <;> cases hc
              · cases ha
              · cases ha
              · rename_i hx hy; exact hx o ha
            | command st0 => simp [ClientCurrent.pushToBuffer] at hc
            | authenticate st0 => simp [ClientCurrent.pushToBuffer] at hc
          | pushingIdleDone o =>
            exfalso
            cases cur with
            | idle st0 =>
              simp only [ClientCurrent.pushToBuffer, IdleState.pushToBuffer] at hc
              split at hc <;> cases hc
              · cases ha
              · cases ha
              · rename_i hx hy; exact hy o ha
            | command st0 => simp [ClientCurrent.pushToBuffer] at hc
            | authenticate st0 => simp [ClientCurrent.pushToBuffer] at hc
          | waitingForIdleSent => exact (h2 ha).elim
          | waitingForIdleDoneSent => exact (h3 ha).elim
          | _ =>
            simp [ClientCurrent.pushToBuffer, IdleState.pushToBuffer, ha, ClientCurrent.finishSending,
              IdleState.finishSending, FinishSendingResult.mapState]
    · cases h
  · cases h

theorem ClientSendState.next_again {s s' : ClientSendState} (h : s.next L = .ok (s', .ok none)) :
    s'.next L = .ok (s', .ok none) := by
  have cur : ∀ {s : ClientSendState} {c}, Except.ok (s.progressCurrent c) =
      (Except.ok (s', .ok none) : Except Panic (ClientSendState × Except (Interrupt Empty) (Option ClientSendEvent))) →
      s'.next L = .ok (s', .ok none) := by
    intro s c h
    simp only [Except.ok.injEq] at h
    obtain ⟨cur', h1, h2⟩ := progress_again h
    unfold next
    rw [h1]
    simp only [h2]
  unfold next at h
  split at h
  · exact cur h
  · rename_i h0
    split at h
    · rename_i h1
      cases h
      unfold next
      rw [h0, h1]
    · split at h
      · cases h
      · exact cur h

theorem Client.progressSend_again {c c' : Client} (h : c.progressSend L = .ok (c', .ok none)) :
    c'.progressSend L = .ok (c', .ok none) ∧ c'.receiveState = c.receiveState := by
  unfold progressSend at h
  split at h
  · rename_i s hs
    cases h
    unfold progressSend
    rw [hs]
    exact ⟨rfl, rfl⟩
  · rename_i hs
    split at h
    · cases h
    · rename_i st h1
      cases h
      refine ⟨?_, rfl⟩
      unfold progressSend
      cases hr : c.receiveState with
      | greeting s => exact (hs s hr).elim
      | _ => simp only [ClientSendState.next_again h1]
    · cases h
    · cases h

theorem ClientSendState.next_output {s s' : ClientSendState} (h : s.next L = .ok (s', .error (.io .needMoreInput))) : False := by
  have cur : ∀ {s : ClientSendState} {c}, s.progressCurrent c = (s', .error (.io .needMoreInput)) → False := by
    intro s c h
    unfold progressCurrent at h
    simp only at h
    split at h
    · split at h <;> cases h
    · cases h
  unfold next at h
  split at h
  · exact cur (Except.ok.inj h)
  · split at h
    · cases h
    · split at h
      · cases h
      · exact cur (Except.ok.inj h)

theorem Client.next_again {c c' : Client} (h : c.next L = .ok (c', .error (.io .needMoreInput))) :
    c'.next L = .ok (c', .error (.io .needMoreInput)) := by
  fun_induction Client.next L c with
  | case1 | case3 | case4 | case6 => cases h
  | case2 c c1 i hs =>
    cases h
    unfold progressSend at hs
    split at hs
    · cases hs
    · split at hs
      · cases hs
      · cases hs
      · cases hs
      · rename_i h1
        cases hs
        exact (ClientSendState.next_output h1).elim
  | case5 c c1 hs c2 i hr =>
    cases h
    have hs1 := (Client.progressSend_again hs).1
    suffices hx : c'.progressSend L = .ok (c', .ok none) ∧ c'.progressReceive L = .ok (c', .error (.io .needMoreInput)) by
      rw [Client.next_eq, hx.1]
      simp only
      rw [hx.2]
    unfold progressReceive at hr
    split at hr
    · split at hr
      · cases hr
      · rename_i h2
        cases hr
        refine ⟨rfl, ?_⟩
        simp only [progressReceive, receiveGreeting_again h2]
      · split at hr <;> cases hr
    · rename_i hrs
      split at hr
      · cases hr
      · rename_i h2
        cases hr
        refine ⟨?_, ?_⟩
        · unfold progressSend at hs1 ⊢
          rw [hrs] at hs1
          simp only at hs1 ⊢
          split at hs1
          · cases hs1
          · rename_i h3
            simp only [Except.ok.injEq, Prod.mk.injEq, and_true] at hs1
            have := congrArg Client.sendState hs1
            simp only at this
            rw [this]
          · simp at hs1
          · simp at hs1
        · simp only [progressReceive, receiveResponse_again h2]
      · cases hr
    · cases hr
  | case7 c c1 hs c2 hr ih => exact ih h

end ImapFlow

import Verif.Spec.ClientHeld
import Verif.Proofs.RestSides

/-!
# What a client still has to hand out
-/

namespace ImapFlow

variable {L : Lib}

/-- The bytes of the current message that are not handed out. -/
def ClientCurrent.unsent : ClientCurrent → Nat
  | .command s =>
    (wire s.fragments).length +
      match s.activity with
      | .pushingFragments lit => (lit.getD []).length
      | .waitingForFragmentsSent lit => (lit.getD []).length
      | .waitingForLiteralAccepted lit => lit.length
  | .authenticate s =>
    match s.activity with
    | .pushingAuthenticate b | .pushingAuthenticateData b => b.length
    | _ => 0
  | .idle s =>
    match s.activity with
    | .pushingIdle b | .pushingIdleDone b => b.length
    | _ => 0

/-- The bytes that are not handed out. -/
def ClientSendState.unsent (L : Lib) (s : ClientSendState) : Nat :=
  (s.queuedMessages.map fun q => (wire (L.encodeCommand q.command)).length).sum +
    (s.currentMessage.map ClientCurrent.unsent).getD 0

/-- The number of bytes handed out. -/
def outputLength {ε α : Type} : Except (Interrupt ε) α → Nat
  | .error (.io (.output b)) => b.length
  | _ => 0

theorem outputLength_error {ε α β : Type} (i : Interrupt ε) :
    outputLength (.error i : Except (Interrupt ε) α) = outputLength (.error i : Except (Interrupt ε) β) := by
  rcases i with ⟨_ | b⟩ | e <;> rfl

theorem wire_cons (f : Fragment) (fs : List Fragment) : wire (f :: fs) = f.data ++ wire fs := by
  simp [wire]

theorem pushFragments_bytes (fs : List Fragment) :
    (pushFragments fs).1.length + ((pushFragments fs).2.1.getD []).length + (wire (pushFragments fs).2.2).length =
      (wire fs).length := by
  fun_induction pushFragments fs with
  | case1 => rfl
  | case2 d rest buf limbo rest' h ih =>
    rw [h] at ih
    simp only [wire_cons, Fragment.data, List.length_append] at ih ⊢
    omega
  | case3 d rest buf limbo rest' h ih =>
    rw [h] at ih
    simp only [wire_cons, Fragment.data, List.length_append] at ih ⊢
    omega
  | case4 d rest => simp [wire_cons, Fragment.data]

theorem singleLine_wire {fs : List Fragment} {b : Bytes} (h : singleLine fs = .ok b) : b = wire fs := by
  unfold singleLine at h
  split at h
  · split at h
    · rename_i hr
      rw [List.isEmpty_iff] at hr
      subst hr
      cases h
      simp [wire, Fragment.data]
    · cases h
  · cases h

theorem ClientCurrent.pushToBuffer_unsent {c c1 : ClientCurrent} {b : Bytes} (h : c.pushToBuffer = (c1, b)) :
    b.length + c1.unsent = c.unsent := by
  cases c with
  | command s =>
    obtain ⟨hd, cmd, fs, act⟩ := s
    cases act with
    | pushingFragments lit =>
      have hp := pushFragments_bytes fs
      simp only [pushToBuffer, CommandState.pushToBuffer, Prod.mk.injEq] at h
      obtain ⟨rfl, rfl⟩ := h
      generalize pushFragments fs = x at hp
      obtain ⟨x, y, z⟩ := x
      simp only [unsent, List.length_append] at hp ⊢
      omega
    | _ =>
      simp only [pushToBuffer, CommandState.pushToBuffer, Prod.mk.injEq] at h
      obtain ⟨rfl, rfl⟩ := h
      simp
  | authenticate s =>
    obtain ⟨hd, cmd, act⟩ := s
    cases act <;>
    · simp only [pushToBuffer, AuthenticateState.pushToBuffer, Prod.mk.injEq] at h
      obtain ⟨rfl, rfl⟩ := h
      simp [unsent]
  | idle s =>
    obtain ⟨hd, tag, act⟩ := s
    cases act <;>
    · simp only [pushToBuffer, IdleState.pushToBuffer, Prod.mk.injEq] at h
      obtain ⟨rfl, rfl⟩ := h
      simp [unsent]

theorem ClientCurrent.finishSending_unsent {c c1 : ClientCurrent} {e : Option ClientSendEvent}
    (h : c.finishSending = .uncompleted c1 e) : c1.unsent = c.unsent := by
  cases c with
  | command s =>
    obtain ⟨hd, cmd, fs, act⟩ := s
    rcases act with lit | (_ | lit) | lit <;>
    · simp only [finishSending, CommandState.finishSending, FinishSendingResult.mapState, FinishSendingResult.uncompleted.injEq,
        reduceCtorEq] at h
      try
        obtain ⟨rfl, rfl⟩ := h
        simp [unsent]
  | authenticate s =>
    obtain ⟨hd, cmd, act⟩ := s
    cases act <;>
    · simp only [finishSending, AuthenticateState.finishSending, FinishSendingResult.mapState,
        FinishSendingResult.uncompleted.injEq] at h
      obtain ⟨rfl, rfl⟩ := h
      simp [unsent]
  | idle s =>
    obtain ⟨hd, tag, act⟩ := s
    cases act <;>
    · simp only [finishSending, IdleState.finishSending, FinishSendingResult.mapState, FinishSendingResult.uncompleted.injEq,
        reduceCtorEq] at h
      try
        obtain ⟨rfl, rfl⟩ := h
        simp [unsent]

theorem ClientQueued.start_unsent {q : ClientQueued} {c : ClientCurrent} (h : q.start L = .ok c) :
    c.unsent = (wire (L.encodeCommand q.command)).length := by
  unfold start at h
  simp only at h
  split at h
  · split at h
    · cases h
    · rename_i hs
      cases h
      rw [← singleLine_wire hs]
      rfl
  · split at h
    · cases h
    · rename_i hs
      cases h
      rw [← singleLine_wire hs]
      rfl
  · cases h
    simp [ClientCurrent.unsent]

theorem ClientSendState.progressCurrent_unsent {s s1 : ClientSendState} {c : ClientCurrent}
    {r : Except (Interrupt Empty) (Option ClientSendEvent)} (h : s.progressCurrent c = (s1, r)) :
    outputLength r + s1.unsent L ≤ ({ s with currentMessage := some c } : ClientSendState).unsent L := by
  unfold progressCurrent at h
  cases hp : c.pushToBuffer with
  | mk c1 b =>
    have p1 := ClientCurrent.pushToBuffer_unsent hp
    simp only [hp] at h
    split at h
    · cases hf : c1.finishSending with
      | uncompleted c2 e =>
        simp only [hf, Prod.mk.injEq] at h
        obtain ⟨rfl, rfl⟩ := h
        have f1 := ClientCurrent.finishSending_unsent hf
        simp only [outputLength, unsent, Option.map_some, Option.getD_some]
        omega
      | completed e =>
        simp only [hf, Prod.mk.injEq] at h
        obtain ⟨rfl, rfl⟩ := h
        simp only [outputLength, unsent, Option.map_some, Option.getD_some, Option.map_none, Option.getD_none]
        omega
    · simp only [Prod.mk.injEq] at h
      obtain ⟨rfl, rfl⟩ := h
      simp only [outputLength, unsent, Option.map_some, Option.getD_some]
      omega

theorem ClientSendState.next_unsent {s s1 : ClientSendState} {r : Except (Interrupt Empty) (Option ClientSendEvent)}
    (h : s.next L = .ok (s1, r)) : outputLength r + s1.unsent L ≤ s.unsent L := by
  obtain ⟨qs, cur⟩ := s
  unfold next at h
  cases cur with
  | some c =>
    simp only [Except.ok.injEq] at h
    exact progressCurrent_unsent (L := L) h
  | none =>
    cases qs with
    | nil =>
      simp only [Except.ok.injEq, Prod.mk.injEq] at h
      obtain ⟨rfl, rfl⟩ := h
      simp [outputLength]
    | cons q qs =>
      simp only at h
      split at h
      · cases h
      · rename_i c hc
        simp only [Except.ok.injEq] at h
        have hq := ClientQueued.start_unsent hc
        have h1 := progressCurrent_unsent (L := L) h
        simp only [unsent, List.map_cons, List.sum_cons, Option.map_some, Option.getD_some, Option.map_none, Option.getD_none] at h1 ⊢
        omega

theorem Client.progressSend_unsent {c c1 : Client} {r : Except (Interrupt ClientError) (Option ClientEvent)}
    (h : c.progressSend L = .ok (c1, r)) : outputLength r + c1.sendState.unsent L ≤ c.sendState.unsent L := by
  unfold progressSend at h
  split at h
  · simp only [Except.ok.injEq, Prod.mk.injEq] at h
    obtain ⟨rfl, rfl⟩ := h
    simp [outputLength]
  · split at h
    · cases h
    all_goals
      rename_i hn
      simp only [Except.ok.injEq, Prod.mk.injEq] at h
      obtain ⟨rfl, rfl⟩ := h
      have h1 := ClientSendState.next_unsent hn
      first
      | exact h1
      | (rename_i io; cases io <;> exact h1)

theorem dispatchResponse_unsent (s : ClientSendState) (r : Response) :
    (dispatchResponse s r).1.unsent L ≤ s.unsent L := by
  obtain ⟨qs, cur⟩ := s
  have none_le : ∀ c : ClientCurrent, ({ queuedMessages := qs, currentMessage := none } : ClientSendState).unsent L ≤
      ({ queuedMessages := qs, currentMessage := some c } : ClientSendState).unsent L := fun c => by
    simp only [ClientSendState.unsent, Option.map_some, Option.getD_some, Option.map_none, Option.getD_none]
    omega
  cases r with
  | status st =>
    have : (ClientSendState.maybeTerminate { queuedMessages := qs, currentMessage := cur } st).1.unsent L ≤
        ({ queuedMessages := qs, currentMessage := cur } : ClientSendState).unsent L := by
      unfold ClientSendState.maybeTerminate
      repeat' split
      all_goals first
        | exact Nat.le_refl _
        | (simp only at *; subst_vars; exact none_le _)
    unfold dispatchResponse
    simp only
    split <;> (rename_i hm; rw [hm] at this; exact this)
  | data d => exact Nat.le_refl _
  | continuationRequest q =>
    cases cur with
    | none => exact Nat.le_refl _
    | some c =>
      cases c with
      | command s =>
        obtain ⟨hd, cmd, fs, act⟩ := s
        cases act <;> simp [dispatchResponse, ClientSendState.literalContinue, ClientSendState.authenticateContinue,
          ClientSendState.idleContinue, ClientSendState.unsent, ClientCurrent.unsent]
      | authenticate s =>
        obtain ⟨hd, cmd, act⟩ := s
        cases act <;> simp [dispatchResponse, ClientSendState.literalContinue, ClientSendState.authenticateContinue,
          ClientSendState.idleContinue, ClientSendState.unsent, ClientCurrent.unsent]
      | idle s =>
        obtain ⟨hd, cmd, act⟩ := s
        cases act <;> simp [dispatchResponse, ClientSendState.literalContinue, ClientSendState.authenticateContinue,
          ClientSendState.idleContinue, ClientSendState.unsent, ClientCurrent.unsent]

theorem outputLength_of_noOutput {ε α : Type} {r : Except (Interrupt ε) α} (h : NoOutput r) : outputLength r = 0 := by
  unfold outputLength
  split
  · rename_i b
    exact absurd rfl (h b)
  · rfl

theorem ReceiveState.next_noOutput' {ε α μ β : Type} {dec : Decoder ε μ} {s s1 : ReceiveState} {io : Io}
    (h : s.next dec = .ok (s1, .error (.io io))) : NoOutput (.error (.io io) : Except (Interrupt α) β) := by
  intro b hb
  cases hb
  exact ReceiveState.next_noOutput h b rfl

theorem discardWith_noOutput {ε α : Type} {s s1 : ReceiveState} {mk : Bytes → ε} {r : Except (Interrupt ε) α}
    (h : discardWith s mk = .ok (s1, r)) : NoOutput r := by
  unfold discardWith at h
  split at h
  · cases h
  · cases h
    exact fun _ => by simp

theorem finishWith_noOutput {ε α : Type} {s s1 : ReceiveState} {m : α} {r : Except (Interrupt ε) α}
    (h : finishWith s m = .ok (s1, r)) : NoOutput r := by
  unfold finishWith at h
  split at h
  · cases h
  · cases h
    exact fun _ => by simp

theorem receiveGreeting_noOutput {s s1 : ReceiveState} {r : Except (Interrupt ClientError) Greeting}
    (h : receiveGreeting L s = .ok (s1, r)) : NoOutput r := by
  unfold receiveGreeting at h
  split at h
  · cases h
  · exact finishWith_noOutput h
  · rename_i hn
    cases h
    exact ReceiveState.next_noOutput' hn
  · exact discardWith_noOutput h
  · exact discardWith_noOutput h
  · cases h

theorem receiveResponse_noOutput {s s1 : ReceiveState} {r : Except (Interrupt ClientError) Response}
    (h : receiveResponse L s = .ok (s1, r)) : NoOutput r := by
  fun_induction receiveResponse L s with
  | case1 => cases h
  | case2 s s2 resp hn => exact finishWith_noOutput h
  | case3 s s2 io hn =>
    cases h
    exact ReceiveState.next_noOutput' hn
  | case4 s s2 len hn ih => exact ih h
  | case5 => exact discardWith_noOutput h
  | case6 => exact discardWith_noOutput h
  | case7 => exact discardWith_noOutput h
  | case8 => cases h

theorem Client.progressReceive_unsent {c c1 : Client} {r : Except (Interrupt ClientError) (Option ClientEvent)}
    (h : c.progressReceive L = .ok (c1, r)) : outputLength r + c1.sendState.unsent L ≤ c.sendState.unsent L := by
  obtain ⟨g, snd, rcv⟩ := c
  unfold progressReceive at h
  cases rcv with
  | greeting s =>
    simp only at h
    split at h
    · cases h
    · rename_i s1 i hr
      cases h
      have hn := receiveGreeting_noOutput hr
      have h0 : outputLength (.error i : Except (Interrupt ClientError) (Option ClientEvent)) = 0 :=
        outputLength_of_noOutput fun b hb => hn b (by cases hb; rfl)
      simp [h0]
    · split at h
      · cases h
      · cases h
        simp [outputLength]
  | response s =>
    simp only at h
    split at h
    · cases h
    · rename_i s1 i hr
      cases h
      have hn := receiveResponse_noOutput hr
      have h0 : outputLength (.error i : Except (Interrupt ClientError) (Option ClientEvent)) = 0 :=
        outputLength_of_noOutput fun b hb => hn b (by cases hb; rfl)
      simp [h0]
    · rename_i s1 resp hr
      cases h
      have := dispatchResponse_unsent (L := L) snd resp
      simp only [outputLength]
      omega
  | dummy => cases h

theorem Client.next_unsent {c c1 : Client} {r : Except (Interrupt ClientError) ClientEvent}
    (h : c.next L = .ok (c1, r)) : outputLength r + c1.sendState.unsent L ≤ c.sendState.unsent L := by
  fun_induction Client.next L c with
  | case1 => cases h
  | case2 c c2 i hs =>
    cases h
    have h1 := progressSend_unsent hs
    rwa [outputLength_error] at h1
  | case3 c c2 e hs =>
    cases h
    exact progressSend_unsent hs
  | case4 => cases h
  | case5 c c2 hs c3 i hr =>
    cases h
    have h1 := progressSend_unsent hs
    have h2 := progressReceive_unsent hr
    rw [outputLength_error (β := ClientEvent)] at h2
    have h3 : outputLength (.ok none : Except (Interrupt ClientError) (Option ClientEvent)) = 0 := rfl
    omega
  | case6 c c2 hs c3 e hr =>
    cases h
    have h1 := progressSend_unsent hs
    have h2 := progressReceive_unsent hr
    simp only [outputLength] at *
    omega
  | case7 c c2 hs c3 hr ih =>
    have h1 := progressSend_unsent hs
    have h2 := progressReceive_unsent hr
    have h3 := ih h
    simp only [outputLength] at *
    omega

theorem Client.enqueueInput_unsent {c c1 : Client} {b : Bytes} (h : c.enqueueInput b = .ok c1) :
    c1.sendState.unsent L = c.sendState.unsent L := by
  unfold enqueueInput at h
  split at h <;> first | cases h; rfl | cases h

theorem Client.setAuthenticateData_unsent {c c1 : Client} {d : AuthenticateData} {r : Except AuthenticateData RawHandle}
    (h : c.setAuthenticateData L d = .ok (c1, r)) :
    c1.sendState.unsent L ≤ c.sendState.unsent L + (wire (L.encodeAuthenticateData d)).length := by
  obtain ⟨g, ⟨qs, cur⟩, rcv⟩ := c
  unfold setAuthenticateData ClientSendState.setAuthenticateData at h
  split at h
  · cases h
  rename_i hs
  cases h
  split at hs
  · split at hs
    · split at hs
      · cases hs
      · rename_i hl
        cases hs
        rw [← singleLine_wire hl]
        simp_all [ClientSendState.unsent, ClientCurrent.unsent]
    · cases hs
      simp
  · cases hs
    simp

theorem Client.setIdleDone_unsent {c c1 : Client} {r : Option RawHandle} (h : c.setIdleDone L = .ok (c1, r)) :
    c1.sendState.unsent L ≤ c.sendState.unsent L + (wire L.encodeIdleDone).length := by
  obtain ⟨g, ⟨qs, cur⟩, rcv⟩ := c
  unfold setIdleDone ClientSendState.setIdleDone at h
  split at h
  · cases h
  rename_i hs
  cases h
  split at hs
  · split at hs
    · split at hs
      · cases hs
      · rename_i hl
        cases hs
        rw [← singleLine_wire hl]
        simp_all [ClientSendState.unsent, ClientCurrent.unsent]
    · cases hs
      simp
  · cases hs
    simp

theorem Client.call_unsent {c c1 : Client} {op : ClientOp} {x : ClientObs} (h : c.call L op = .ok (c1, x)) :
    c1.sendState.unsent L ≤ c.sendState.unsent L + op.wants L := by
  cases op with
  | enqueueCommand cmd =>
    cases h
    simp only [ClientSendState.enqueueCommand, ClientSendState.unsent, ClientOp.wants, List.map_append,
      List.sum_append, List.map_cons, List.map_nil, List.sum_cons, List.sum_nil]
    omega
  | enqueueInput b =>
    simp only [Client.call] at h
    cases he : c.enqueueInput b with
    | error p => rw [he] at h; cases h
    | ok c2 =>
      rw [he] at h
      cases h
      rw [enqueueInput_unsent he]
      omega
  | next =>
    simp only [Client.call] at h
    cases he : c.next L with
    | error p => rw [he] at h; cases h
    | ok y =>
      obtain ⟨c2, r⟩ := y
      rw [he] at h
      cases h
      have := next_unsent he
      show c2.sendState.unsent L ≤ _
      omega
  | setAuthenticateData d =>
    simp only [Client.call] at h
    cases he : c.setAuthenticateData L d with
    | error p => rw [he] at h; cases h
    | ok y =>
      obtain ⟨c2, r⟩ := y
      rw [he] at h
      cases h
      exact setAuthenticateData_unsent he
  | setIdleDone =>
    simp only [Client.call] at h
    cases he : c.setIdleDone L with
    | error p => rw [he] at h; cases h
    | ok y =>
      obtain ⟨c2, r⟩ := y
      rw [he] at h
      cases h
      exact setIdleDone_unsent he

/-- What the client hands out and still has to hand out was asked for. -/
theorem client_replay_unsent {S : List (StreamItem ClientError ClientEvent ClientOp)} {c c' : Client}
    (h : (clientMachine L).replay c S = some c') :
    (streamOutput S).length + c'.sendState.unsent L ≤ c.sendState.unsent L + wanted L S := by
  induction S generalizing c with
  | nil => cases h; simp [streamOutput, wanted]
  | cons i S ih =>
    have e1 : streamOutput (i :: S) = streamOutput [i] ++ streamOutput S := by
      simp [streamOutput]
    have e2 : wanted L (i :: S) = wanted L [i] + wanted L S := by simp [wanted]
    rw [e1, e2, List.length_append]
    cases i with
    | user op =>
      simp only [Machine.replay] at h
      split at h
      · rename_i c2 hu
        have h1 := ih h
        simp only [clientMachine, Except.map] at hu
        split at hu
        · cases hu
        · rename_i y hc
          cases hu
          obtain ⟨c2, x⟩ := y
          have h2 := Client.call_unsent hc
          replace h1 : _ ≤ c2.sendState.unsent L + _ := h1
          have e3 : streamOutput [(.user op : StreamItem ClientError ClientEvent ClientOp)] = [] := rfl
          have e4 : wanted L [.user op] = op.wants L := by simp [wanted]
          rw [e3, e4]
          simp only [List.length_nil]
          omega
      · cases h
    | deliver b =>
      simp only [Machine.replay] at h
      split at h
      · rename_i c2 hu
        have h1 := ih h
        have h2 := Client.enqueueInput_unsent (L := L) hu
        have e3 : streamOutput [(.deliver b : StreamItem ClientError ClientEvent ClientOp)] = [] := rfl
        rw [e3]
        simp only [List.length_nil]
        omega
      · cases h
    | poll r =>
      simp only [Machine.replay] at h
      split at h
      · rename_i c2 r' hu
        split at h
        · rename_i hr
          subst hr
          have h1 := ih h
          have h2 := Client.next_unsent hu
          have e3 : (streamOutput [(.poll r' : StreamItem ClientError ClientEvent ClientOp)]).length = outputLength r' := by
            rcases r' with (⟨_ | b⟩ | e) | ev <;> simp [streamOutput, outputLength]
          rw [e3]
          omega
        · cases h
      · cases h
    | _ =>
      have h1 := ih (c := c) h
      simp only [streamOutput, List.flatMap_cons, List.flatMap_nil, List.append_nil, List.length_nil] at *
      omega

end ImapFlow

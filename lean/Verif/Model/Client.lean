import Verif.Model.Receive
import Verif.Model.ClientSend

/-!
# Client (`/repo/src/client.rs`, `/repo/src/client_receive.rs`)
-/

namespace ImapFlow

/-! ## Termination measure of the receive loops -/

/-- Number of bytes in the read buffer that no finished line or literal covers yet.  Only used to
justify termination. -/
def ReceiveState.unread (s : ReceiveState) : Nat := s.readBuffer.length - s.seenBytes

theorem findCrlf_some_lt {buf : Bytes} {start : Nat} {relaxed : Bool} {r : FindCrlfResult}
    (h : findCrlf buf start relaxed = .ok (some r)) : start ≤ r.lfPosition ∧ r.lfPosition < buf.length := by
  unfold findCrlf at h
  split at h
  · cases h
  · rename_i hs
    split at h
    · cases h
    · rename_i i hi
      simp only [Except.ok.injEq, Option.some.injEq] at h
      subst h
      obtain ⟨hlt, -⟩ := List.findIdx?_eq_some_iff_findIdx_eq.mp hi
      simp only [List.length_drop] at hlt
      simp only
      omega

theorem ReceiveState.maxReadableBytes_le (s : ReceiveState) : s.maxReadableBytes ≤ s.readBuffer.length := by
  unfold maxReadableBytes
  split
  · exact Nat.le_refl _
  · exact Nat.min_le_left _ _

theorem ReceiveState.progressLine_unread {ε μ : Type} {dec : Decoder ε μ} {s s1 : ReceiveState} {n : Nat}
    {r : Except (Interrupt (ReceiveError ε)) μ}
    (h : progressLine dec s n = .ok (s1, r))
    (hr : r ≠ .error (.io .needMoreInput)) (hr' : r ≠ .error (.error .messageTooLong)) :
    s1.unread < s.unread := by
  unfold progressLine at h
  simp only at h
  split at h
  · cases h
  · rename_i hle
    have hm := s.maxReadableBytes_le
    split at h
    · cases h
    · split at h
      · simp only [Except.ok.injEq, Prod.mk.injEq] at h
        exact absurd h.2.symm hr'
      · simp only [Except.ok.injEq, Prod.mk.injEq] at h
        exact absurd h.2.symm hr
    · rename_i c hc
      obtain ⟨-, hlt⟩ := findCrlf_some_lt hc
      simp only [List.length_drop, List.length_take] at hlt
      split at h
      · simp only [Except.ok.injEq, Prod.mk.injEq] at h
        rw [← h.1]; simp only [unread]; omega
      · split at h
        · split at h
          · simp only [Except.ok.injEq, Prod.mk.injEq] at h
            rw [← h.1]; simp only [unread]; omega
          · cases h
        · simp only [Except.ok.injEq, Prod.mk.injEq] at h
          rw [← h.1]; simp only [unread]; omega

theorem ReceiveState.next_unread {ε μ : Type} {dec : Decoder ε μ} {s s1 : ReceiveState}
    {r : Except (Interrupt (ReceiveError ε)) μ}
    (h : next dec s = .ok (s1, r))
    (hr : r ≠ .error (.io .needMoreInput)) (hr' : r ≠ .error (.error .messageTooLong)) :
    s1.unread < s.unread := by
  unfold next at h
  split at h
  · exact progressLine_unread h hr hr'
  · rename_i len _
    split at h
    · cases h
    · rename_i s2 i heq
      simp only [Except.ok.injEq, Prod.mk.injEq] at h
      unfold progressLiteral at heq
      simp only at heq
      split at heq
      · cases heq
      · split at heq
        · split at heq
          · simp only [Except.ok.injEq, Prod.mk.injEq, Except.error.injEq] at heq
            rw [← heq.2] at h; exact absurd h.2.symm hr'
          · simp only [Except.ok.injEq, Prod.mk.injEq, Except.error.injEq] at heq
            rw [← heq.2] at h; exact absurd h.2.symm hr
        · simp at heq
    · rename_i s2 heq
      have h1 := progressLine_unread h hr hr'
      have h2 : s2.unread ≤ s.unread := by
        unfold progressLiteral at heq
        simp only at heq
        split at heq
        · cases heq
        · split at heq
          · split at heq <;> simp at heq
          · simp only [Except.ok.injEq, Prod.mk.injEq] at heq
            rw [← heq.1]; simp only [unread]; omega
      omega

/-! ## Model -/

/-- `client::Options`, `/repo/src/client.rs:27-31`. -/
structure ClientOptions where
  crlfRelaxed : Bool
  deriving DecidableEq, Repr

/-- `impl Default for client::Options`, `/repo/src/client.rs:34-41`. -/
def ClientOptions.default : ClientOptions := { crlfRelaxed := false }

/-- `ClientReceiveState`, `/repo/src/client_receive.rs:5-10`. -/
inductive ClientReceiveState where
  | greeting (state : ReceiveState)
  | response (state : ReceiveState)
  | dummy
  deriving DecidableEq, Repr

/-- `ClientReceiveState::change_state`, `/repo/src/client_receive.rs:13-23`. -/
def ClientReceiveState.changeState : ClientReceiveState → Except Panic ClientReceiveState
  | .greeting state => .ok (.response state.changeCodec)
  | .response state => .ok (.response state)
  | .dummy => .error .unreachableCode

/-- `client::Event`, `/repo/src/client.rs:310-376`. -/
inductive ClientEvent where
  | greetingReceived (greeting : Greeting)
  | commandSent (handle : RawHandle) (command : Command)
  | commandRejected (handle : RawHandle) (command : Command) (status : Status)
  | authenticateStarted (handle : RawHandle)
  | authenticateContinuationRequestReceived (handle : RawHandle) (request : ContinuationRequest)
  | authenticateStatusReceived (handle : RawHandle) (commandAuthenticate : CommandAuthenticate)
      (status : Status)
  | idleCommandSent (handle : RawHandle)
  | idleAccepted (handle : RawHandle) (request : ContinuationRequest)
  | idleRejected (handle : RawHandle) (status : Status)
  | idleDoneSent (handle : RawHandle)
  | dataReceived (data : Data)
  | statusReceived (status : Status)
  | continuationRequestReceived (request : ContinuationRequest)
  deriving DecidableEq, Repr

/-- `client::Error`, `/repo/src/client.rs:379-384`. -/
inductive ClientError where
  | expectedCrlfGotLf (discardedBytes : Bytes)
  | malformedMessage (discardedBytes : Bytes)
  deriving DecidableEq, Repr

/-- `Client`, `/repo/src/client.rs:43-47`. -/
structure Client where
  handleGenerator : HandleGenerator
  sendState : ClientSendState
  receiveState : ClientReceiveState
  deriving DecidableEq, Repr

/-- Finish a receive error: `let discarded_bytes = state.discard_message(); return Err(...)`,
`/repo/src/client.rs:119-130,153-164`. -/
def discardWith {ε α : Type} (s : ReceiveState) (mk : Bytes → ε) : Res ReceiveState ε α :=
  match s.discardMessage with
  | .error p => .error p
  | .ok (s, discardedBytes) => .ok (s, .error (.error (mk discardedBytes)))

/-- `DecodingSuccess(m) => { state.finish_message(); m }`. -/
def finishWith {ε α : Type} (s : ReceiveState) (m : α) : Res ReceiveState ε α :=
  match s.finishMessage with
  | .error p => .error p
  | .ok s => .ok (s, .ok m)

/-- The receiving part of the `Greeting` arm of `Client::progress_receive`,
`/repo/src/client.rs:109-136`. -/
def receiveGreeting (L : Lib) (s : ReceiveState) : Res ReceiveState ClientError Greeting :=
  match s.next L.decodeGreeting with
  | .error p => .error p
  | .ok (s, .ok greeting) => finishWith s greeting
  | .ok (s, .error (.io io)) => .ok (s, .error (.io io))
  | .ok (s, .error (.error (.decodingFailure _))) => discardWith s .malformedMessage
  | .ok (s, .error (.error .expectedCrlfGotLf)) => discardWith s .expectedCrlfGotLf
  | .ok (_, .error (.error .messageTooLong)) => .error .unreachableCode

/-- The receiving part of the `Response` arm of `Client::progress_receive` together with the
surrounding `loop` (`continue` after `start_literal`), `/repo/src/client.rs:107-108,137-169`. -/
def receiveResponse (L : Lib) (s : ReceiveState) : Res ReceiveState ClientError Response :=
  match _h : s.next L.decodeResponse with
  | .error p => .error p
  | .ok (s1, .ok response) => finishWith s1 response
  | .ok (s1, .error (.io io)) => .ok (s1, .error (.io io))
  | .ok (s1, .error (.error (.decodingFailure (.literalFound length)))) =>
    -- The client must accept the literal in any case.
    receiveResponse L (s1.startLiteral length)
  | .ok (s1, .error (.error (.decodingFailure .failed))) => discardWith s1 .malformedMessage
  | .ok (s1, .error (.error (.decodingFailure .incomplete))) => discardWith s1 .malformedMessage
  | .ok (s1, .error (.error .expectedCrlfGotLf)) => discardWith s1 .expectedCrlfGotLf
  | .ok (_, .error (.error .messageTooLong)) => .error .unreachableCode
termination_by s.unread
decreasing_by
  have h1 : s1.unread < s.unread := ReceiveState.next_unread _h (by simp) (by simp)
  exact h1

/-- The dispatch of a received response, `/repo/src/client.rs:171-229`.  Returns the new send state
and the event (`None` if a literal was continued). -/
def dispatchResponse (send : ClientSendState) (response : Response) :
    ClientSendState × Option ClientEvent :=
  match response with
  | .status status =>
    match send.maybeTerminate status with
    | (send, some (.literalRejected handle command)) =>
      (send, some (.commandRejected handle command status))
    | (send, some (.authenticateAccepted handle commandAuthenticate)) =>
      (send, some (.authenticateStatusReceived handle commandAuthenticate status))
    | (send, some (.authenticateRejected handle commandAuthenticate)) =>
      (send, some (.authenticateStatusReceived handle commandAuthenticate status))
    | (send, some (.idleRejected handle)) => (send, some (.idleRejected handle status))
    | (send, none) => (send, some (.statusReceived status))
  | .data data => (send, some (.dataReceived data))
  | .continuationRequest request =>
    match send.literalContinue with
    | (send, true) => (send, none)
    | (send, false) =>
      match send.authenticateContinue with
      | (send, some handle) =>
        (send, some (.authenticateContinuationRequestReceived handle request))
      | (send, none) =>
        match send.idleContinue with
        | (send, some handle) => (send, some (.idleAccepted handle request))
        | (send, none) => (send, some (.continuationRequestReceived request))

namespace Client

/-- `Client::new`, `/repo/src/client.rs:50-68`; `handleGenerator` is the result of
`HANDLE_GENERATOR_GENERATOR.generate()`. -/
def new (handleGenerator : HandleGenerator) (options : ClientOptions) : Client :=
  { handleGenerator
    sendState := .new
    receiveState := .greeting (.new options.crlfRelaxed none) }

/-- `Client::enqueue_command`, `/repo/src/client.rs:75-79`. -/
def enqueueCommand (c : Client) (command : Command) : Client × RawHandle :=
  let (handleGenerator, handle) := c.handleGenerator.generate
  ({ c with handleGenerator, sendState := c.sendState.enqueueCommand handle command }, handle)

/-- The event mapping of `Client::progress_send`, `/repo/src/client.rs:88-99`. -/
def sendEvent : ClientSendEvent → ClientEvent
  | .command handle command => .commandSent handle command
  | .authenticate handle => .authenticateStarted handle
  | .idle handle => .idleCommandSent handle
  | .idleDone handle => .idleDoneSent handle

/-- `Client::progress_send`, `/repo/src/client.rs:81-104`. -/
def progressSend (L : Lib) (c : Client) : Res Client ClientError (Option ClientEvent) :=
  match c.receiveState with
  | .greeting _ => .ok (c, .ok none)
  | _ =>
    match c.sendState.next L with
    | .error p => .error p
    | .ok (sendState, .ok none) => .ok ({ c with sendState }, .ok none)
    | .ok (sendState, .ok (some event)) => .ok ({ c with sendState }, .ok (some (sendEvent event)))
    | .ok (sendState, .error (.io io)) => .ok ({ c with sendState }, .error (.io io))

/-- `Client::progress_receive`, `/repo/src/client.rs:106-238`. -/
def progressReceive (L : Lib) (c : Client) : Res Client ClientError (Option ClientEvent) :=
  match c.receiveState with
  | .greeting state =>
    match receiveGreeting L state with
    | .error p => .error p
    | .ok (state, .error i) => .ok ({ c with receiveState := .greeting state }, .error i)
    | .ok (state, .ok greeting) =>
      match ClientReceiveState.changeState (.greeting state) with
      | .error p => .error p
      | .ok receiveState =>
        .ok ({ c with receiveState }, .ok (some (.greetingReceived greeting)))
  | .response state =>
    match receiveResponse L state with
    | .error p => .error p
    | .ok (state, .error i) => .ok ({ c with receiveState := .response state }, .error i)
    | .ok (state, .ok response) =>
      let (sendState, event) := dispatchResponse c.sendState response
      .ok ({ c with receiveState := .response state, sendState }, .ok event)
  | .dummy => .error .unreachableCode

/-- `Client::set_authenticate_data`, `/repo/src/client.rs:240-245`. -/
def setAuthenticateData (L : Lib) (c : Client) (data : AuthenticateData) :
    Except Panic (Client × Except AuthenticateData RawHandle) :=
  match c.sendState.setAuthenticateData L data with
  | .error p => .error p
  | .ok (sendState, r) => .ok ({ c with sendState }, r)

/-- `Client::set_idle_done`, `/repo/src/client.rs:247-249`. -/
def setIdleDone (L : Lib) (c : Client) : Except Panic (Client × Option RawHandle) :=
  match c.sendState.setIdleDone L with
  | .error p => .error p
  | .ok (sendState, r) => .ok ({ c with sendState }, r)

/-- `Client::enqueue_input`, `/repo/src/client.rs:264-270`. -/
def enqueueInput (c : Client) (bytes : Bytes) : Except Panic Client :=
  match c.receiveState with
  | .greeting state => .ok { c with receiveState := .greeting (state.enqueueInput bytes) }
  | .response state => .ok { c with receiveState := .response (state.enqueueInput bytes) }
  | .dummy => .error .unreachableCode

/-- Bytes not yet covered by a finished message; termination measure of `Client::next`. -/
def unread (c : Client) : Nat :=
  match c.receiveState with
  | .greeting state => state.unread
  | .response state => state.unread
  | .dummy => 0

end Client

theorem finishWith_unread {ε α : Type} {s s1 : ReceiveState} {m : α} {r : Except (Interrupt ε) α}
    (h : finishWith s m = .ok (s1, r)) : s1.unread = s.unread := by
  unfold finishWith at h
  split at h
  · cases h
  · rename_i s2 heq
    simp only [Except.ok.injEq, Prod.mk.injEq] at h
    unfold ReceiveState.finishMessage at heq
    split at heq
    · cases heq
    · simp only [Except.ok.injEq] at heq
      rw [← h.1, ← heq]
      simp [ReceiveState.unread]

theorem discardWith_ne_ok {ε α : Type} {s s1 : ReceiveState} {mk : Bytes → ε} {m : α}
    (h : discardWith s mk = .ok (s1, .ok m)) : False := by
  unfold discardWith at h
  split at h <;> simp at h

theorem receiveResponse_unread {L : Lib} {s s1 : ReceiveState} {r : Response}
    (h : receiveResponse L s = .ok (s1, .ok r)) : s1.unread < s.unread := by
  fun_induction receiveResponse L s with
  | case1 => cases h
  | case2 s s2 resp heq =>
    have h1 := ReceiveState.next_unread heq (by simp) (by simp)
    have h2 := finishWith_unread h
    omega
  | case3 => simp at h
  | case4 s s2 len heq ih =>
    have h1 := ReceiveState.next_unread heq (by simp) (by simp)
    have h2 := ih h
    have h3 : (s2.startLiteral len).unread = s2.unread := rfl
    omega
  | case5 => exact (discardWith_ne_ok h).elim
  | case6 => exact (discardWith_ne_ok h).elim
  | case7 => exact (discardWith_ne_ok h).elim
  | case8 => cases h

theorem Client.progressSend_unread {L : Lib} {c c1 : Client} {r : Except (Interrupt ClientError) (Option ClientEvent)}
    (h : progressSend L c = .ok (c1, r)) : c1.receiveState = c.receiveState := by
  unfold progressSend at h
  split at h
  · simp only [Except.ok.injEq, Prod.mk.injEq] at h; rw [← h.1]
  · split at h
    · cases h
    all_goals (simp only [Except.ok.injEq, Prod.mk.injEq] at h; rw [← h.1])

theorem Client.progressReceive_unread {L : Lib} {c c1 : Client}
    (h : progressReceive L c = .ok (c1, .ok none)) : c1.unread < c.unread := by
  unfold progressReceive at h
  split at h
  · split at h
    · cases h
    · simp at h
    · split at h <;> simp at h
  · rename_i state hst
    split at h
    · cases h
    · simp at h
    · rename_i s1 resp heq
      have := receiveResponse_unread heq
      simp only [Except.ok.injEq, Prod.mk.injEq] at h
      rw [← h.1]
      simpa [unread, hst] using this
  · cases h

/-- `Client::next`, `/repo/src/client.rs:272-282`.  The loop continues after `progress_receive`
returned `Ok(None)`; that call has consumed at least one byte. -/
def Client.next (L : Lib) (c : Client) : Res Client ClientError ClientEvent :=
  match _hs : progressSend L c with
  | .error p => .error p
  | .ok (c1, .error i) => .ok (c1, .error i)
  | .ok (c1, .ok (some event)) => .ok (c1, .ok event)
  | .ok (c1, .ok none) =>
    match _hr : progressReceive L c1 with
    | .error p => .error p
    | .ok (c2, .error i) => .ok (c2, .error i)
    | .ok (c2, .ok (some event)) => .ok (c2, .ok event)
    | .ok (c2, .ok none) => Client.next L c2
termination_by c.unread
decreasing_by
  have h1 := Client.progressSend_unread _hs
  have h2 := Client.progressReceive_unread _hr
  have h3 : c1.unread = c.unread := by simp [Client.unread, h1]
  omega

end ImapFlow

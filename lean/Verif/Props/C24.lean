import Verif.Proofs.ServerReads
import Verif.Spec.ServerSamples

/-!
# C24: client bytes are interpreted in the right phase
-/

namespace ImapFlow

/-- Every reported message is the decoding of the first unread bytes with the codec of the current
phase. -/
theorem C24_decoded_in_phase {L : Lib} {g : HandleGenerator} {o : ServerOptions} {gr : Greeting}
    {ops : List ServerOp} {s : Server} {T1 T2 : List SItem} {w : Bytes} {e : ServerEvent}
    (h : (Server.new g o gr).trace L ops = .ok (s, T1 ++ .received w e :: T2)) :
    w <+: serverUnread T1 ∧
    ((serverPhase T1 = .command ∧ ∃ c, IsMessage (commandFraming L o) w c ∧ e = c.event) ∨
     (serverPhase T1 = .authenticate ∧ ∃ d, IsMessage (authenticateFraming L o) w d ∧
        e = .authenticateDataReceived d) ∨
     (serverPhase T1 = .idle ∧ IsMessage (idleFraming L o) w () ∧ e = .idleDoneReceived)) := by
  obtain ⟨s1, hinv⟩ := Server.prefix_inv h
  have hg := Server.trace_guard h
  refine ⟨Server.taken_prefix hinv hg, ?_⟩
  obtain ⟨-, -, -, ht, -⟩ := hg
  rw [ServerView.of_phase] at ht
  generalize serverPhase T1 = ph at ht
  cases ph with
  | command => exact .inl ⟨rfl, ht⟩
  | authenticate => exact .inr (.inl ⟨rfl, ht⟩)
  | idlePending => exact ht.elim
  | idle => exact .inr (.inr ⟨rfl, ht⟩)

/-- A discarded line is one that the codec of the current phase does not accept. -/
theorem C24_discarded_in_phase {L : Lib} {g : HandleGenerator} {o : ServerOptions} {gr : Greeting}
    {ops : List ServerOp} {s : Server} {T1 T2 : List SItem} {e : ServerError} {rs : List ServerMessage}
    (h : (Server.new g o gr).trace L ops = .ok (s, T1 ++ .failed e rs :: T2)) :
    e.bytes <+: serverUnread T1 ∧ Discarded L o (serverPhase T1) e rs := by
  obtain ⟨s1, hinv⟩ := Server.prefix_inv h
  have hg := Server.trace_guard h
  refine ⟨Server.taken_prefix hinv hg, ?_⟩
  obtain ⟨-, -, hd, -⟩ := hg
  rw [ServerView.of_phase] at hd
  exact hd

/-- Until the user decides about an IDLE nothing is decoded and all input is kept. -/
theorem C24_nothing_decoded_while_pending {L : Lib} {g : HandleGenerator} {o : ServerOptions} {gr : Greeting}
    {ops : List ServerOp} {s : Server} {T1 T2 : List SItem} {i : SItem}
    (h : (Server.new g o gr).trace L ops = .ok (s, T1 ++ i :: T2)) (hp : serverPhase T1 = .idlePending) :
    i.reads = false ∧ (∀ p rs, i ≠ .literal p rs) ∧ serverUnread (T1 ++ [i]) = serverUnread T1 ++ i.given := by
  have hr : i.reads = false := by
    cases i with
    | received w e =>
      have := (C24_decoded_in_phase h).2
      simp [hp] at this
    | failed e rs =>
      have := (C24_discarded_in_phase h).2
      rw [hp] at this
      exact this.elim
    | _ => rfl
  refine ⟨hr, ?_, ?_⟩
  · rintro p rs rfl
    obtain ⟨-, -, -, h3, -⟩ := Server.trace_guard h
    rw [ServerView.of_phase, hp] at h3
    cases h3
  · have := Server.unread_append (T1 := T1) (T := [i]) (T2 := T2) (by simpa using h) (by simpa using hr)
    simpa [serverGiven] using this

/-- Pipelined input: the same line `D` is DONE after `idle_accept`, a bad command after `idle_reject`;
`A Cx` is not authenticate data, and `Dpw` is. -/
example : ServerSample.authIdleTrace[10]? = some (.failed (.malformedMessage (ClientSample.ln "A Cx")) []) ∧
    serverPhase (ServerSample.authIdleTrace.take 10) = .authenticate ∧
    ServerSample.authIdleTrace[21]? = some (.failed (.malformedMessage (ClientSample.ln "D")) []) ∧
    serverPhase (ServerSample.authIdleTrace.take 21) = .command ∧
    ServerSample.authIdleTrace[29]? = some (.received (ClientSample.ln "D") .idleDoneReceived) ∧
    serverPhase (ServerSample.authIdleTrace.take 29) = .idle := by
  decide +kernel

end ImapFlow

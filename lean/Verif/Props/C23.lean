import Verif.Proofs.ServerReads
import Verif.Spec.ServerSamples

/-!
# C23: server AUTHENTICATE/IDLE methods succeed exactly in their phase
-/

namespace ImapFlow

/-- `serverPhase` is `authenticate` exactly between `CommandAuthenticateReceived` and a successful
`authenticate_finish`, and `idlePending` exactly between `IdleCommandReceived` and a successful
`idle_accept`/`idle_reject`. -/
theorem C23_granted {L : Lib} {g : HandleGenerator} {o : ServerOptions} {gr : Greeting}
    {ops : List ServerOp} {s : Server} {T1 T2 : List SItem} {i : SItem}
    (h : (Server.new g o gr).trace L ops = .ok (s, T1 ++ i :: T2)) :
    (∀ q r, i = .authContinue q r →
      (serverPhase T1 = .authenticate ∧ ∃ h, r = .ok h) ∨ (serverPhase T1 ≠ .authenticate ∧ r = .error q)) ∧
    (∀ st r, i = .authFinish st r →
      (serverPhase T1 = .authenticate ∧ ∃ h, r = .ok h) ∨ (serverPhase T1 ≠ .authenticate ∧ r = .error st)) ∧
    (∀ q r, i = .idleAccept q r →
      (serverPhase T1 = .idlePending ∧ ∃ h, r = .ok h) ∨ (serverPhase T1 ≠ .idlePending ∧ r = .error q)) ∧
    (∀ st r, i = .idleReject st r →
      (serverPhase T1 = .idlePending ∧ ∃ h, r = .ok h) ∨ (serverPhase T1 ≠ .idlePending ∧ r = .error st)) := by
  have hg := Server.trace_guard h
  have hp := ServerView.of_phase gr T1
  refine ⟨?_, ?_, ?_, ?_⟩ <;>
    (rintro q r rfl
     rw [← hp]
     exact hg)

/-- A failed call changes nothing. -/
theorem C23_failure_unchanged (s s' : Server) :
    (∀ q q', s.authenticateContinue q = (s', .error q') → s' = s) ∧
    (∀ st st', s.authenticateFinish st = .ok (s', .error st') → s' = s) ∧
    (∀ q q', s.idleAccept q = .ok (s', .error q') → s' = s) ∧
    (∀ st st', s.idleReject st = .ok (s', .error st') → s' = s) := by
  obtain ⟨so, g, snd, rcv⟩ := s
  refine ⟨?_, ?_, ?_, ?_⟩ <;>
    (intro q q' h
     cases rcv <;>
       simp [Server.authenticateContinue, Server.authenticateFinish, Server.idleAccept, Server.idleReject,
         ServerReceiveState.changeState, Server.enqueueContinuationRequest, Server.enqueueStatus,
         Server.enqueueResponse] at h <;>
       first | exact h.1.symm | exact h.symm)

/-- A successful call appends the response with the returned handle to the send queue. -/
theorem C23_success_appends (s s' : Server) (h : RawHandle) :
    (∀ q, s.authenticateContinue q = (s', .ok h) → s'.sendState.queuedMessages =
      s.sendState.queuedMessages ++ [.response (some h) (.continuationRequest q)]) ∧
    (∀ st, s.authenticateFinish st = .ok (s', .ok h) → s'.sendState.queuedMessages =
      s.sendState.queuedMessages ++ [.response (some h) (.status st)]) ∧
    (∀ q, s.idleAccept q = .ok (s', .ok h) → s'.sendState.queuedMessages =
      s.sendState.queuedMessages ++ [.response (some h) (.continuationRequest q)]) ∧
    (∀ st, s.idleReject st = .ok (s', .ok h) → s'.sendState.queuedMessages =
      s.sendState.queuedMessages ++ [.response (some h) (.status st)]) := by
  obtain ⟨so, g, snd, rcv⟩ := s
  refine ⟨?_, ?_, ?_, ?_⟩ <;>
    (intro q h
     cases rcv <;>
       simp [Server.authenticateContinue, Server.authenticateFinish, Server.idleAccept, Server.idleReject,
         ServerReceiveState.changeState, Server.enqueueContinuationRequest, Server.enqueueStatus,
         Server.enqueueResponse, ServerSendState.enqueueResponse] at h <;>
       (obtain ⟨rfl, rfl⟩ := h; rfl))

/-- All methods called in the right and in the wrong phase. -/
example : ServerSample.authIdleTrace.filterMap (fun
      | .authContinue _ r | .idleAccept _ r => some (r.toOption.isSome)
      | .authFinish _ r | .idleReject _ r => some (r.toOption.isSome)
      | _ => none) = [false, false, true, true, false, true, true, false] := by
  decide +kernel

end ImapFlow

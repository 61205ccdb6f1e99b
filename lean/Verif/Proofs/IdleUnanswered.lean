import Verif.Spec.IdleUnanswered
import Verif.Spec.Held
import Verif.Proofs.FullStreamRun

/-!
# When IDLE waits
-/

namespace ImapFlow

variable {L : Lib} {K : Type}

namespace Server

theorem idleWaits_of {s s' : Server} (h : s'.receiveState = s.receiveState) : s'.idleWaits = s.idleWaits := by
  unfold idleWaits; rw [h]

theorem literalFound_waits {s s' : Server} {st : ReceiveState} {tag : Tag} {n : Nat} {m : LiteralMode}
    {r : Except (Interrupt ServerError) (Option ServerEvent)} (h : literalFound L s st tag n m = .ok (s', r)) : s'.idleWaits = false := by
  unfold literalFound at h
  repeat' split at h
  all_goals first | (cases h; done) | (cases h; rfl)

theorem discardCommand_waits {s s' : Server} {st : ReceiveState} {mk : Bytes → ServerError}
    {r : Except (Interrupt ServerError) (Option ServerEvent)} (h : discardCommand s st mk = .ok (s', r)) : s'.idleWaits = false := by
  unfold discardCommand at h
  split at h <;> cases h
  rfl

theorem progressReceive_waits {s s' : Server} {r : Except (Interrupt ServerError) (Option ServerEvent)}
    (h : progressReceive L s = .ok (s', r)) (hw : s'.idleWaits = true) :
    s.idleWaits = true ∨ ∃ tag, r = .ok (some (.idleCommandReceived tag)) := by
  unfold progressReceive at h
  split at h
  · split at h
    · cases h
    · unfold commandDecoded at h
      split at h
      · cases h
      split at h
      · split at h
        · cases h
        rename_i e
        cases e
        cases h
        cases hw
      · split at h
        · cases h
        cases h
        exact .inr ⟨_, rfl⟩
      · cases h
        cases hw
    · cases h; cases hw
    · rw [literalFound_waits h] at hw; cases hw
    all_goals (rw [discardCommand_waits h] at hw; cases hw)
  · split at h
    · cases h
    · cases h; cases hw
    · cases h; cases hw
  · rename_i e
    exact .inl (by unfold idleWaits; rw [e])
  · split at h
    · cases h
    · cases h; cases hw
    · split at h
      · cases h
      rename_i e
      cases e
      cases h; cases hw
  · cases h

theorem next_waits {s s' : Server} {r : Except (Interrupt ServerError) ServerEvent}
    (h : s.next L = .ok (s', r)) (hw : s'.idleWaits = true) :
    s.idleWaits = true ∨ ∃ tag, r = .ok (.idleCommandReceived tag) := by
  fun_induction Server.next L s with
  | case1 s s1 i hs => cases h; exact .inl (by rw [← hw]; exact (idleWaits_of (progressSend_receiveState hs)).symm)
  | case2 s s1 e hs => cases h; exact .inl (by rw [← hw]; exact (idleWaits_of (progressSend_receiveState hs)).symm)
  | case3 => cases h
  | case4 s s1 hs s2 i hr =>
    cases h
    rcases progressReceive_waits hr hw with h1 | ⟨tag, h1⟩
    · exact .inl (by rw [← h1]; exact (idleWaits_of (progressSend_receiveState hs)).symm)
    · cases h1
  | case5 s s1 hs s2 e hr =>
    cases h
    rcases progressReceive_waits hr hw with h1 | ⟨tag, h1⟩
    · exact .inl (by rw [← h1]; exact (idleWaits_of (progressSend_receiveState hs)).symm)
    · cases h1; exact .inr ⟨_, rfl⟩
  | case6 s s1 hs s2 hr ih =>
    rcases ih h with h1 | h1
    · rcases progressReceive_waits hr h1 with h2 | ⟨tag, h2⟩
      · exact .inl (by rw [← h2]; exact (idleWaits_of (progressSend_receiveState hs)).symm)
      · cases h2
    · exact .inr h1

theorem enqueueInput_waits {s s' : Server} {b : Bytes} (h : s.enqueueInput b = .ok s') : s'.idleWaits = s.idleWaits := by
  unfold enqueueInput at h
  split at h <;> cases h <;> (rename_i e; unfold idleWaits; rw [e])

/-- After the user has answered, IDLE does not wait; other calls do not make it wait. -/
theorem call_waits {s s' : Server} {op : ServerOp} {obs : ServerObs} (h : s.call L op = .ok (s', obs)) (hn : op ≠ .next)
    (hw : s'.idleWaits = true) :
    s.idleWaits = true ∧ (∀ request, op ≠ .idleAccept request) ∧ ∀ status, op ≠ .idleReject status := by
  cases op with
  | enqueueData d => cases h; exact ⟨hw, nofun, nofun⟩
  | enqueueStatus d => cases h; exact ⟨hw, nofun, nofun⟩
  | enqueueContinuationRequest d => cases h; exact ⟨hw, nofun, nofun⟩
  | authenticateContinue q =>
    simp only [call, authenticateContinue] at h
    split at h <;> cases h <;> exact ⟨hw, nofun, nofun⟩
  | authenticateFinish st =>
    simp only [call, authenticateFinish] at h
    split at h
    · rename_i e
      simp only [enqueueStatus, enqueueResponse, e, ServerReceiveState.changeState] at h
      cases h; cases hw
    · cases h; exact ⟨hw, nofun, nofun⟩
  | idleAccept q =>
    simp only [call, idleAccept] at h
    split at h
    · rename_i e
      simp only [enqueueContinuationRequest, enqueueResponse, e, ServerReceiveState.changeState] at h
      cases h; cases hw
    · rename_i hne
      cases h
      unfold idleWaits at hw
      split at hw
      · rename_i st e; exact (hne st e).elim
      · cases hw
  | idleReject q =>
    simp only [call, idleReject] at h
    split at h
    · rename_i e
      simp only [enqueueStatus, enqueueResponse, e, ServerReceiveState.changeState] at h
      cases h; cases hw
    · rename_i hne
      cases h
      unfold idleWaits at hw
      split at hw
      · rename_i st e; exact (hne st e).elim
      · cases hw
  | enqueueInput b =>
    simp only [call] at h
    cases h1 : s.enqueueInput b with
    | error p => rw [h1] at h; cases h
    | ok s1 =>
      rw [h1] at h
      cases h
      exact ⟨by rw [← hw]; exact (enqueueInput_waits h1).symm, nofun, nofun⟩
  | next => exact (hn rfl).elim

end Server

/-- While the server waits for the answer to IDLE, the user has not answered. -/
theorem server_replay_waits {S : List (StreamItem ServerError ServerEvent ServerOp)} {s s' : Server}
    (h : (serverMachine L).replay s S = some s') (hn : .user .next ∉ S) (h0 : s.idleWaits = false) (hw : s'.idleWaits = true) :
    IdleUnanswered S := by
  induction S using snocInduction generalizing s' with
  | nil => cases h; rw [h0] at hw; cases hw
  | snoc S i ih =>
    rw [Machine.replay_append] at h
    cases h1 : (serverMachine L).replay s S with
    | none => rw [h1] at h; cases h
    | some s1 =>
      rw [h1] at h
      have ih := fun hw => ih h1 (fun hm => hn (List.mem_append_left _ hm)) hw
      have keep : s1.idleWaits = true → (∀ request, i ≠ .user (.idleAccept request)) → (∀ status, i ≠ .user (.idleReject status)) →
          IdleUnanswered (S ++ [i]) := by
        intro hw h2 h3
        obtain ⟨A, tag, B, rfl, h4, h5⟩ := ih hw
        refine ⟨A, tag, B ++ [i], by simp, fun q hm => ?_, fun q hm => ?_⟩
        · rcases List.mem_append.mp hm with hm | hm
          · exact h4 q hm
          · exact h2 q (List.mem_singleton.mp hm).symm
        · rcases List.mem_append.mp hm with hm | hm
          · exact h5 q hm
          · exact h3 q (List.mem_singleton.mp hm).symm
      simp only [Option.bind_some] at h
      cases i with
      | user op =>
        simp only [Machine.replay, serverMachine] at h
        cases h2 : s1.call L op with
        | error p => rw [h2] at h; cases h
        | ok x =>
          rw [h2] at h
          cases h
          obtain ⟨h3, h4, h5⟩ := Server.call_waits h2 (by rintro rfl; exact hn (by simp)) hw
          exact keep h3 (fun q e => h4 q (by cases e; rfl)) (fun q e => h5 q (by cases e; rfl))
      | deliver b =>
        simp only [Machine.replay, serverMachine] at h
        cases h2 : s1.enqueueInput b with
        | error p => rw [h2] at h; cases h
        | ok x =>
          rw [h2] at h
          cases h
          exact keep (by rw [← hw]; exact (Server.enqueueInput_waits h2).symm) nofun nofun
      | poll r =>
        simp only [Machine.replay, serverMachine] at h
        cases h2 : s1.next L with
        | error p => rw [h2] at h; cases h
        | ok x =>
          obtain ⟨s2, r'⟩ := x
          rw [h2] at h
          dsimp only at h
          split at h
          · rename_i e
            cases e
            cases h
            rcases Server.next_waits h2 hw with h3 | ⟨tag, rfl⟩
            · exact keep h3 nofun nofun
            · exact ⟨S, tag, [], rfl, nofun, nofun⟩
          · cases h
      | _ => cases h; exact keep hw nofun nofun

/-- The same for a stream. -/
theorem FullStream.run_waits {g : HandleGenerator} {o : ServerOptions} {gr : Greeting} {tls : Option (Tls K)}
    {as : List (StreamAct ServerOp)} {c : FullStream K Server} {T : List (FullItem ServerError ServerEvent ServerOp)}
    (h : FullStream.run (serverMachine L) ⟨tls, [], [], Server.new g o gr, .at .idle⟩ as = some (c, T)) (hc : c.ctl ≠ .at .dead)
    (hn : .user .next ∉ streamPart T) (hw : c.state.idleWaits = true) : IdleUnanswered (streamPart T) :=
  server_replay_waits (FullStream.run_replay h hc) hn rfl hw

end ImapFlow

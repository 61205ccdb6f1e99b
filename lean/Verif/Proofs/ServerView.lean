import Verif.Proofs.ServerSafe
import Verif.Proofs.ClientReads

/-!
# The observer's view of a server in terms of the trace
-/

namespace ImapFlow

theorem serverGiven_append (T U : List SItem) : serverGiven (T ++ U) = serverGiven T ++ serverGiven U := by
  simp [serverGiven]

theorem serverTaken_append (T U : List SItem) : serverTaken (T ++ U) = serverTaken T ++ serverTaken U := by
  simp [serverTaken]

theorem serverOutput_append (T U : List SItem) : serverOutput (T ++ U) = serverOutput T ++ serverOutput U := by
  simp [serverOutput]

theorem serverSent_append (T U : List SItem) : serverSent (T ++ U) = serverSent T ++ serverSent U := by
  simp [serverSent]

theorem serverMessages_append (g : Greeting) (T U : List SItem) :
    serverMessages g (T ++ U) = serverMessages g T ++ U.flatMap SItem.enqueues := by
  simp [serverMessages]

theorem ServerView.of_snoc (g : Greeting) (T : List SItem) (i : SItem) : of g (T ++ [i]) = (of g T).observe i := by
  simp [of]

/-- One step of `serverPhase`. -/
def SItem.phase (p : ServerPhase) : SItem → ServerPhase
  | .authFinish _ (.ok _) => .command
  | .idleAccept _ (.ok _) => .idle
  | .idleReject _ (.ok _) => .command
  | .received _ e => e.phase p
  | _ => p

theorem serverPhase_snoc (T : List SItem) (i : SItem) : serverPhase (T ++ [i]) = i.phase (serverPhase T) := by
  unfold serverPhase
  rw [List.foldl_append]
  rfl

theorem ServerView.observe_fields (v : ServerView) (i : SItem) :
    (v.observe i).given = v.given ++ i.given ∧ (v.observe i).consumed = v.consumed ++ i.taken ∧
    (v.observe i).messages = v.messages ++ i.enqueues ∧
    (v.observe i).outputs.flatten = v.outputs.flatten ++ i.outputs ∧
    (v.observe i).phase = i.phase v.phase := by
  cases i with
  | authContinue q r => cases r <;> simp [observe, SItem.given, SItem.taken, SItem.enqueues, SItem.outputs, SItem.phase]
  | authFinish q r => cases r <;> simp [observe, SItem.given, SItem.taken, SItem.enqueues, SItem.outputs, SItem.phase]
  | idleAccept q r => cases r <;> simp [observe, SItem.given, SItem.taken, SItem.enqueues, SItem.outputs, SItem.phase]
  | idleReject q r => cases r <;> simp [observe, SItem.given, SItem.taken, SItem.enqueues, SItem.outputs, SItem.phase]
  | _ => simp [observe, SItem.given, SItem.taken, SItem.enqueues, SItem.outputs, SItem.phase]

theorem ServerView.of_fields (g : Greeting) (T : List SItem) :
    (of g T).given = serverGiven T ∧ (of g T).consumed = serverTaken T ∧
    (of g T).messages = serverMessages g T ∧ (of g T).outputs.flatten = serverOutput T ∧
    (of g T).phase = serverPhase T := by
  induction T using snocInduction with
  | nil => exact ⟨rfl, rfl, rfl, rfl, rfl⟩
  | snoc T i ih =>
    obtain ⟨h1, h2, h3, h4, h5⟩ := ih
    obtain ⟨g1, g2, g3, g4, g5⟩ := (of g T).observe_fields i
    rw [of_snoc, g1, g2, g3, g4, g5, h1, h2, h3, h4, h5]
    refine ⟨?_, ?_, ?_, ?_, ?_⟩
    · rw [serverGiven_append]; simp [serverGiven]
    · rw [serverTaken_append]; simp [serverTaken]
    · rw [serverMessages_append]; simp
    · rw [serverOutput_append]; simp [serverOutput]
    · rw [serverPhase_snoc]

theorem ServerView.of_unread (g : Greeting) (T : List SItem) : (of g T).unread = serverUnread T := by
  obtain ⟨h1, h2, -⟩ := of_fields g T
  rw [unread, h1, h2, serverUnread]

theorem ServerView.of_phase (g : Greeting) (T : List SItem) : (of g T).phase = serverPhase T :=
  (of_fields g T).2.2.2.2

namespace Server

variable {L : Lib} {g : HandleGenerator} {o : ServerOptions} {gr : Greeting} {ops : List ServerOp}
  {s : Server} {T T1 T2 : List SItem} {i : SItem} {v : ServerView}

theorem Inv.given (h : s.Inv L o v) : v.given = v.consumed ++ s.buffer := by
  obtain ⟨so, hg, snd, rcv⟩ := s
  obtain ⟨-, -, h⟩ := h
  cases rcv with
  | dummy => exact h.elim
  | command st => exact h.2.1.2.2
  | authenticateData st => exact h.2.1.2.2
  | idleAccept st => exact h.2.2.2.1
  | idleDone st => exact h.2.1.2.2

theorem Inv.unread (h : s.Inv L o (ServerView.of gr T)) : serverUnread T = s.buffer := by
  rw [← ServerView.of_unread gr, ServerView.unread_eq h.given]

theorem given_eq (h : s.Inv L o (ServerView.of gr T)) : serverGiven T = serverTaken T ++ serverUnread T := by
  have := h.given
  obtain ⟨h1, h2, -⟩ := ServerView.of_fields gr T
  rw [h1, h2] at this
  rw [h.unread, this]

theorem of_given {rest w : Bytes} (h : s.Inv L o (ServerView.of gr T))
    (hg : (ServerView.of gr T).given = (ServerView.of gr T).consumed ++ w ++ rest) : w ++ rest = serverUnread T := by
  obtain ⟨h1, h2, -⟩ := ServerView.of_fields gr T
  rw [h1, h2, given_eq h, List.append_assoc, List.append_cancel_left_eq] at hg
  exact hg.symm

/-- What is taken is a prefix of the unread input. -/
theorem taken_prefix (h : s.Inv L o (ServerView.of gr T)) (hg : Guard L o (ServerView.of gr T) i) :
    i.taken <+: serverUnread T := by
  cases i with
  | received w e =>
    obtain ⟨-, ⟨rest, h1⟩, -⟩ := hg
    exact ⟨rest, of_given h h1⟩
  | failed e rs =>
    obtain ⟨-, ⟨rest, h1⟩, -⟩ := hg
    exact ⟨rest, of_given h h1⟩
  | _ => exact List.nil_prefix

/-- A run has a trace. -/
theorem run_trace {s0 : Server} {hist : List ServerObs} (h : s0.run L ops = .ok (s, hist)) :
    ∃ T, s0.trace L ops = .ok (s, T) ∧ T.filterMap SItem.erase = hist := by
  rw [← trace_erase] at h
  cases ht : s0.trace L ops with
  | error p => rw [ht] at h; cases h
  | ok x =>
    obtain ⟨c', T⟩ := x
    rw [ht] at h
    simp only [eraseRes, Except.ok.injEq, Prod.mk.injEq] at h
    exact ⟨T, by rw [h.1], h.2⟩

end Server

/-! ## Framings of the phases -/

/-- The input `w` ends a message of the phase. -/
def ServerPhase.Complete (L : Lib) (o : ServerOptions) (p : ServerPhase) (w : Bytes) : Prop :=
  match p with
  | .command => ImapFlow.Complete (commandFraming L o) w
  | .authenticate => ImapFlow.Complete (authenticateFraming L o) w
  | .idlePending => False
  | .idle => ImapFlow.Complete (idleFraming L o) w

theorem ServerPhase.Complete.unique {L : Lib} {o : ServerOptions} {p : ServerPhase} {w w' X : Bytes}
    (h : p.Complete L o w) (h' : p.Complete L o w') (hw : w <+: X) (hw' : w' <+: X) : w = w' := by
  cases p with
  | command => exact ImapFlow.Complete.unique h h' hw hw'
  | authenticate => exact ImapFlow.Complete.unique h h' hw hw'
  | idlePending => exact h.elim
  | idle => exact ImapFlow.Complete.unique h h' hw hw'

theorem Taken.complete {L : Lib} {o : ServerOptions} {p : ServerPhase} {w : Bytes} {e : ServerEvent}
    (h : Taken L o p w e) : p.Complete L o w := by
  cases p with
  | command => obtain ⟨c, h, -⟩ := h; exact h.complete
  | authenticate => obtain ⟨c, h, -⟩ := h; exact h.complete
  | idlePending => exact h.elim
  | idle => exact h.1.complete

theorem DiscardedAs.complete {ε μ : Type} {F : Framing ε μ} {max : Nat} {e : ServerError} (h : DiscardedAs F max e)
    (hn : ∀ w, e ≠ .commandTooLong w) : ImapFlow.Complete F e.bytes := by
  cases e with
  | expectedCrlfGotLf w => exact h.1.complete
  | malformedMessage w => obtain ⟨⟨x, h⟩, -⟩ := h; exact h.complete
  | commandTooLong w => exact (hn w rfl).elim
  | literalTooLong w => exact h.elim

theorem Discarded.complete {L : Lib} {o : ServerOptions} {p : ServerPhase} {e : ServerError}
    {rs : List ServerMessage} (h : Discarded L o p e rs) (hn : ∀ w, e ≠ .commandTooLong w) :
    p.Complete L o e.bytes := by
  cases p with
  | idlePending => exact h.elim
  | authenticate => exact h.2.complete hn
  | idle => exact h.2.complete hn
  | command =>
    cases e with
    | literalTooLong w => obtain ⟨-, tag, k, mode, h, -⟩ := h; exact h.complete
    | malformedMessage w => obtain ⟨-, -, x, h, -⟩ := h; exact h.complete
    | expectedCrlfGotLf w => exact h.2.1.complete
    | commandTooLong w => exact (hn w rfl).elim

/-- The size of what is discarded. -/
theorem Discarded.length_le {L : Lib} {o : ServerOptions} {p : ServerPhase} {e : ServerError}
    {rs : List ServerMessage} (h : Discarded L o p e rs) : e.bytes.length ≤ o.maxCommandSize := by
  have key : ∀ {ε μ : Type} {F : Framing ε μ}, DiscardedAs F o.maxCommandSize e →
      e.bytes.length ≤ o.maxCommandSize := by
    intro ε μ F h
    cases e with
    | expectedCrlfGotLf w => exact h.2
    | malformedMessage w => exact h.2
    | commandTooLong w => exact Nat.le_of_eq h.2
    | literalTooLong w => exact h.elim
  cases p with
  | idlePending => exact h.elim
  | authenticate => exact key h.2
  | idle => exact key h.2
  | command =>
    cases e with
    | literalTooLong w => exact h.1
    | malformedMessage w => exact h.2.1
    | expectedCrlfGotLf w => exact h.2.2
    | commandTooLong w => exact Nat.le_of_eq h.2.2

end ImapFlow

import Verif.Proofs.ClientTrace
import Verif.Proofs.Outcome

/-!
# The client invariant

Relates the state of the client to the observer's view of its trace, and collects for every kind of
item what must hold when it happens (`*Guard`).
-/

namespace ImapFlow

/-! ## Fragments -/

theorem wire_append (a b : List Fragment) : wire (a ++ b) = wire a ++ wire b := by
  simp [wire]

theorem wire_cons (f : Fragment) (b : List Fragment) : wire (f :: b) = f.data ++ wire b := by
  simp [wire]

theorem syncs_append (a b : List Fragment) : syncs (a ++ b) = syncs a + syncs b := by
  induction a with
  | nil => simp [syncs]
  | cons f a ih =>
    rcases f with d | ⟨d, _ | _⟩
    · simp only [List.cons_append, syncs, ih]
    · simp only [List.cons_append, syncs, ih]; omega
    · simp only [List.cons_append, syncs, ih]

theorem pushFragments_none {fs rest : List Fragment} {buf : Bytes}
    (h : pushFragments fs = (buf, none, rest)) : rest = [] ∧ buf = wire fs ∧ syncs fs = 0 := by
  induction fs generalizing buf rest with
  | nil =>
    simp only [pushFragments, Prod.mk.injEq] at h
    simp [← h.1, ← h.2.2, wire, syncs]
  | cons f fs ih =>
    rcases f with d | ⟨d, _ | _⟩
    · simp only [pushFragments, Prod.mk.injEq] at h
      obtain ⟨h1, h2, h3⟩ := ih (buf := (pushFragments fs).1) (rest := rest) (by
        rw [← h.2.1, ← h.2.2])
      refine ⟨h1, ?_, ?_⟩
      · rw [wire_cons, ← h2, ← h.1]; rfl
      · simpa [syncs] using h3
    · simp [pushFragments] at h
    · simp only [pushFragments, Prod.mk.injEq] at h
      obtain ⟨h1, h2, h3⟩ := ih (buf := (pushFragments fs).1) (rest := rest) (by
        rw [← h.2.1, ← h.2.2])
      refine ⟨h1, ?_, ?_⟩
      · rw [wire_cons, ← h2, ← h.1]; rfl
      · simpa [syncs] using h3

theorem pushFragments_some {fs rest : List Fragment} {buf d : Bytes}
    (h : pushFragments fs = (buf, some d, rest)) :
    ∃ pre, fs = pre ++ .literal d .sync :: rest ∧ buf = wire pre ∧ syncs pre = 0 := by
  induction fs generalizing buf rest with
  | nil => simp [pushFragments] at h
  | cons f fs ih =>
    rcases f with d' | ⟨d', _ | _⟩
    · simp only [pushFragments, Prod.mk.injEq] at h
      obtain ⟨pre, h1, h2, h3⟩ := ih (buf := (pushFragments fs).1) (rest := rest) (by
        rw [← h.2.1, ← h.2.2])
      refine ⟨.line d' :: pre, by rw [h1]; rfl, ?_, ?_⟩
      · rw [wire_cons, ← h2, ← h.1]; rfl
      · simpa [syncs] using h3
    · simp only [pushFragments, Prod.mk.injEq, Option.some.injEq] at h
      obtain ⟨rfl, rfl, rfl⟩ := h
      exact ⟨[], rfl, rfl, rfl⟩
    · simp only [pushFragments, Prod.mk.injEq] at h
      obtain ⟨pre, h1, h2, h3⟩ := ih (buf := (pushFragments fs).1) (rest := rest) (by
        rw [← h.2.1, ← h.2.2])
      refine ⟨.literal d' .nonSync :: pre, by rw [h1]; rfl, ?_, ?_⟩
      · rw [wire_cons, ← h2, ← h.1]; rfl
      · simpa [syncs] using h3

theorem wireDatas_append (L : Lib) (a b : List AuthenticateData) :
    wireDatas L (a ++ b) = wireDatas L a ++ wireDatas L b := by simp [wireDatas]

theorem wireDatas_singleton (L : Lib) (d : AuthenticateData) :
    wireDatas L [d] = wire (L.encodeAuthenticateData d) := by simp [wireDatas]

theorem singleLine_eq {fs : List Fragment} {b : Bytes} (h : singleLine fs = .ok b) :
    fs = [.line b] ∧ wire fs = b := by
  unfold singleLine at h
  split at h
  · split at h
    · rename_i hr
      rw [List.isEmpty_iff] at hr
      simp only [Except.ok.injEq] at h
      subst hr; subst h
      simp [wire, Fragment.data]
    · cases h
  · cases h

/-! ## The invariant of the sending side -/

/-- The command that a current message sends. -/
def ClientCurrent.queued : ClientCurrent → RawHandle × Command
  | .command s => (s.handle, s.command)
  | .authenticate s => (s.handle, s.commandAuthenticate.toCommand)
  | .idle s => (s.handle, ⟨s.tag, .idle⟩)

def CommandOk (L : Lib) (v : ClientView) (s : CommandState) : Prop :=
  s.command.isRegular = true ∧ v.started = false ∧ v.asked = 0 ∧ v.datas = [] ∧ v.accepted = false ∧
  v.doneSet = false ∧
  match s.activity with
  | .pushingFragments none => v.sent = [] ∧ v.released = 0 ∧ s.fragments = L.encodeCommand s.command
  | .pushingFragments (some d) => ∃ pre, L.encodeCommand s.command = pre ++ .literal d .sync :: s.fragments ∧
      v.sent = wire pre ∧ v.released = syncs pre + 1
  | .waitingForFragmentsSent none => v.sent = wire (L.encodeCommand s.command) ∧
      v.released = syncs (L.encodeCommand s.command)
  | .waitingForFragmentsSent (some d) =>
      ∃ pre, L.encodeCommand s.command = pre ++ .literal d .sync :: s.fragments ∧
        v.sent = wire pre ∧ v.released = syncs pre
  | .waitingForLiteralAccepted d =>
      ∃ pre, L.encodeCommand s.command = pre ++ .literal d .sync :: s.fragments ∧
        v.sent = wire pre ∧ v.released = syncs pre

def AuthOk (L : Lib) (v : ClientView) (s : AuthenticateState) : Prop :=
  v.released = 0 ∧ v.accepted = false ∧ v.doneSet = false ∧
  let line := wire (L.encodeCommand s.commandAuthenticate.toCommand)
  match s.activity with
  | .pushingAuthenticate b => v.sent = [] ∧ v.started = false ∧ v.datas = [] ∧ v.asked = 0 ∧ b = line
  | .waitingForAuthenticateSent => v.started = false ∧ v.sent = line ∧ v.datas = [] ∧ v.asked = 0
  | .waitingForAuthenticateResponse => v.started = true ∧ v.sent = line ++ wireDatas L v.datas ∧
      v.asked = v.datas.length
  | .waitingForAuthenticateDataSet => v.started = true ∧ v.sent = line ++ wireDatas L v.datas ∧
      v.asked = v.datas.length + 1
  | .pushingAuthenticateData b => v.started = true ∧ ∃ ds d, v.datas = ds ++ [d] ∧
      b = wire (L.encodeAuthenticateData d) ∧ v.sent = line ++ wireDatas L ds ∧ v.asked = v.datas.length
  | .waitingForAuthenticateDataSent => v.started = true ∧ v.sent = line ++ wireDatas L v.datas ∧
      v.asked = v.datas.length

def IdleOk (L : Lib) (v : ClientView) (s : IdleState) : Prop :=
  v.released = 0 ∧ v.asked = 0 ∧ v.datas = [] ∧
  let line := wire (L.encodeCommand ⟨s.tag, .idle⟩)
  match s.activity with
  | .pushingIdle b => v.sent = [] ∧ v.started = false ∧ v.accepted = false ∧ v.doneSet = false ∧ b = line
  | .waitingForIdleSent => v.started = false ∧ v.sent = line ∧ v.accepted = false ∧ v.doneSet = false
  | .waitingForIdleResponse => v.started = true ∧ v.sent = line ∧ v.accepted = false ∧ v.doneSet = false
  | .waitingForIdleDoneSet => v.started = true ∧ v.sent = line ∧ v.accepted = true ∧ v.doneSet = false
  | .pushingIdleDone b => v.started = true ∧ v.sent = line ∧ v.accepted = true ∧ v.doneSet = true ∧
      b = wire L.encodeIdleDone
  | .waitingForIdleDoneSent => v.started = true ∧ v.sent = line ++ wire L.encodeIdleDone ∧
      v.accepted = true ∧ v.doneSet = true

def CurOk (L : Lib) (v : ClientView) : ClientCurrent → Prop
  | .command s => CommandOk L v s
  | .authenticate s => AuthOk L v s
  | .idle s => IdleOk L v s

/-- The queue as the observer sees it. -/
def queuePairs (q : List ClientQueued) : List (RawHandle × Command) := q.map fun x => (x.handle, x.command)

def SendOk (L : Lib) (v : ClientView) (s : ClientSendState) : Prop :=
  v.ended.length ≤ v.enqueued.length ∧
  match s.currentMessage with
  | none => v.Fresh ∧ v.remaining = queuePairs s.queuedMessages
  | some cur => CurOk L v cur ∧ v.sent ≠ [] ∧ v.remaining = cur.queued :: queuePairs s.queuedMessages

/-! ## Guards -/

/-- What may be output. -/
def OutputGuard (L : Lib) (v : ClientView) (b : Bytes) : Prop :=
  b ≠ [] ∧ ∃ h cmd q, v.remaining = (h, cmd) :: q ∧
  ((cmd.isRegular = true ∧ v.datas = [] ∧ ∃ pre post, L.encodeCommand cmd = pre ++ post ∧
      v.sent ++ b = wire pre ∧ syncs pre = v.released ∧
      (post = [] ∨ ∃ d post', post = .literal d .sync :: post')) ∨
   (cmd.isAuthenticate = true ∧
      ((v.sent = [] ∧ v.datas = [] ∧ b = wire (L.encodeCommand cmd)) ∨
       ∃ ds d, v.datas = ds ++ [d] ∧ v.asked = v.datas.length ∧
         v.sent = wire (L.encodeCommand cmd) ++ wireDatas L ds ∧ b = wire (L.encodeAuthenticateData d))) ∨
   (cmd.isIdle = true ∧ v.datas = [] ∧
      ((v.sent = [] ∧ b = wire (L.encodeCommand cmd)) ∨
       (v.sent = wire (L.encodeCommand cmd) ∧ v.accepted = true ∧ v.doneSet = true ∧
         b = wire L.encodeIdleDone))))

/-- Which sending events may happen. -/
def SentGuard (L : Lib) (v : ClientView) (e : ClientEvent) : Prop :=
  ∃ h cmd q, v.remaining = (h, cmd) :: q ∧
  ((e = .commandSent h cmd ∧ cmd.isRegular = true ∧ v.datas = [] ∧
      v.sent = wire (L.encodeCommand cmd) ∧ v.released = syncs (L.encodeCommand cmd)) ∨
   (e = .authenticateStarted h ∧ cmd.isAuthenticate = true ∧ v.started = false ∧
      v.sent = wire (L.encodeCommand cmd) ∧ v.datas = []) ∨
   (e = .idleCommandSent h ∧ cmd.isIdle = true ∧ v.started = false ∧
      v.sent = wire (L.encodeCommand cmd) ∧ v.datas = [] ∧ v.accepted = false) ∨
   (e = .idleDoneSent h ∧ cmd.isIdle = true ∧ v.datas = [] ∧ v.accepted = true ∧ v.doneSet = true ∧
      v.sent = wire (L.encodeCommand cmd) ++ wire L.encodeIdleDone))

/-! ## Sending preserves the invariant -/

theorem ClientView.remaining_terminate {v : ClientView} {e : ClientEvent} {x : RawHandle × Command}
    {q : List (RawHandle × Command)} (h : v.remaining = x :: q) :
    (v.terminate e).remaining = q ∧ (v.terminate e).ended.length ≤ v.enqueued.length := by
  unfold remaining at h
  constructor
  · show v.enqueued.drop (v.ended ++ [_]).length = q
    rw [List.length_append, ← List.drop_drop, h]
    rfl
  · show (v.ended ++ [_]).length ≤ _
    have := congrArg List.length h
    simp only [List.length_drop, List.length_cons] at this
    simp; omega

theorem ClientView.terminate_fresh (v : ClientView) (e : ClientEvent) : (v.terminate e).Fresh :=
  ⟨rfl, rfl, rfl, rfl, rfl, rfl, rfl⟩

/-- The sending side cannot proceed on its own. -/
def ClientSendState.AtRest (s : ClientSendState) : Prop :=
  match s.currentMessage with
  | none => s.queuedMessages = []
  | some (.command st) => ∃ d, st.activity = .waitingForLiteralAccepted d
  | some (.authenticate st) => st.activity = .waitingForAuthenticateResponse ∨
      st.activity = .waitingForAuthenticateDataSet
  | some (.idle st) => st.activity = .waitingForIdleResponse ∨ st.activity = .waitingForIdleDoneSet

/-- The result of sending, described for the observer. -/
def SendResult (L : Lib) (v : ClientView) (s' : ClientSendState) :
    Except (Interrupt Empty) (Option ClientSendEvent) → Prop
  | .ok none => SendOk L v s' ∧ s'.AtRest ∧ Waiting L v
  | .ok (some e) => SentGuard L v (Client.sendEvent e) ∧ SendOk L (v.event (Client.sendEvent e)) s'
  | .error (.io (.output b)) => OutputGuard L v b ∧ SendOk L { v with sent := v.sent ++ b } s'
  | .error (.io .needMoreInput) => False
  | .error (.error _) => False

theorem progressCommand {L : Lib} (hL : L.Lawful) {v : ClientView} {s s' : ClientSendState} {st : CommandState}
    {r : Except (Interrupt Empty) (Option ClientSendEvent)}
    (hv : v.ended.length ≤ v.enqueued.length)
    (hrem : v.remaining = (ClientCurrent.command st).queued :: queuePairs s.queuedMessages)
    (hok : CommandOk L v st) (hsent : v.sent ≠ [] ∨ st.activity = .pushingFragments none)
    (h : s.progressCurrent (.command st) = (s', r)) : SendResult L v s' r := by
  obtain ⟨hd, cmd, fs, act⟩ := st
  obtain ⟨hreg, h1, h2, h3, h4, h5, hact⟩ := hok
  simp only at hreg hact hsent
  cases act with
  | pushingFragments acc =>
    unfold ClientSendState.progressCurrent at h
    simp only [ClientCurrent.pushToBuffer, CommandState.pushToBuffer] at h
    cases hp : pushFragments fs with
    | mk buf x =>
      obtain ⟨limbo, rest⟩ := x
      simp only [hp] at h
      have hne : ∃ b pre0, acc.getD [] ++ buf = b ∧ v.sent ++ b = wire pre0 ++ buf ∧
          L.encodeCommand cmd = pre0 ++ fs ∧ syncs pre0 = v.released ∧ (acc = none → b ≠ []) := by
        cases acc with
        | none =>
          simp only at hact
          refine ⟨buf, [], rfl, by simp [hact.1, wire], by simp [hact.2.2], by simp [syncs, hact.2.1], ?_⟩
          intro _ hb
          obtain ⟨d, rest', he, hd⟩ := hL.encodeCommand cmd
          rw [hact.2.2, he] at hp
          simp only [pushFragments, Prod.mk.injEq] at hp
          rw [hb] at hp
          simp only [List.append_eq_nil_iff] at hp
          exact hd hp.1.1
        | some d =>
          simp only at hact
          obtain ⟨pre, ha, hb, hc⟩ := hact
          refine ⟨d ++ buf, pre ++ [.literal d .sync], rfl, ?_, by simp [ha], ?_, by simp⟩
          · rw [hb, wire_append, List.append_assoc]
            simp [wire, Fragment.data]
          · rw [syncs_append, hc]; rfl
      obtain ⟨b, pre0, hb, hb2, hb3, hb4, hb5⟩ := hne
      rw [hb] at h
      -- the new state satisfies the invariant with `b` appended
      have hnew : CommandOk L { v with sent := v.sent ++ b }
          { handle := hd, command := cmd, fragments := rest, activity := .waitingForFragmentsSent limbo } := by
        refine ⟨hreg, h1, h2, h3, h4, h5, ?_⟩
        simp only
        cases limbo with
        | none =>
          obtain ⟨-, hw, hs⟩ := pushFragments_none hp
          simp only
          rw [hb2, hb3, wire_append, syncs_append, hw, hs, hb4]
          exact ⟨rfl, rfl⟩
        | some d =>
          obtain ⟨pre1, hw, hw2, hs⟩ := pushFragments_some hp
          simp only
          refine ⟨pre0 ++ pre1, ?_, ?_, ?_⟩
          · rw [hb3, hw, List.append_assoc]
          · rw [hb2, wire_append, hw2]
          · rw [syncs_append, hb4, hs]; rfl
      split at h
      · rename_i hemp
        rw [List.isEmpty_iff] at hemp
        subst hemp
        have hacc : acc ≠ none := fun ha => hb5 ha rfl
        have hsent' : v.sent ≠ [] := by
          rcases hsent with h | h
          · exact h
          · simp only [CommandActivity.pushingFragments.injEq] at h; exact (hacc h).elim
        rw [List.append_nil] at hnew
        have hveq : ({ v with sent := v.sent } : ClientView) = v := rfl
        rw [hveq] at hnew
        obtain ⟨-, -, -, -, -, -, hnew⟩ := hnew
        simp only at hnew
        cases limbo with
        | none =>
          simp only [ClientCurrent.finishSending, CommandState.finishSending,
            FinishSendingResult.mapState, Prod.mk.injEq] at h
          obtain ⟨rfl, rfl⟩ := h
          refine ⟨⟨_, _, _, hrem, .inl ⟨rfl, hreg, h3, hnew.1, hnew.2⟩⟩, ?_⟩
          have ht := ClientView.remaining_terminate (e := .commandSent hd cmd) hrem
          exact ⟨ht.2, ClientView.terminate_fresh _ _, ht.1⟩
        | some d =>
          simp only [ClientCurrent.finishSending, CommandState.finishSending,
            FinishSendingResult.mapState, Prod.mk.injEq] at h
          obtain ⟨rfl, rfl⟩ := h
          refine ⟨⟨hv, ⟨hreg, h1, h2, h3, h4, h5, hnew⟩, hsent', hrem⟩, ⟨_, rfl⟩, ?_⟩
          obtain ⟨pre, ha, hb, hc⟩ := hnew
          exact .inr ⟨_, _, _, hrem, hsent', .inl ⟨hreg, h3, pre, d, _, ha, hb, hc⟩⟩
      · rename_i hemp
        have hbne : b ≠ [] := by simpa using hemp
        simp only [Prod.mk.injEq] at h
        obtain ⟨rfl, rfl⟩ := h
        refine ⟨⟨hbne, _, _, _, hrem, .inl ⟨hreg, h3, ?_⟩⟩, hv, hnew, by simp [hbne], hrem⟩
        obtain ⟨-, -, -, -, -, -, hnew⟩ := hnew
        cases limbo with
        | none =>
          simp only at hnew
          exact ⟨_, [], by simp, hnew.1, hnew.2.symm, .inl rfl⟩
        | some d =>
          obtain ⟨pre, ha, hb, hc⟩ := hnew
          exact ⟨pre, _, ha, hb, hc.symm, .inr ⟨_, _, rfl⟩⟩
  | waitingForFragmentsSent limbo =>
    have hsent' : v.sent ≠ [] := by
      rcases hsent with h | h
      · exact h
      · cases h
    cases limbo with
    | none =>
      simp only [ClientSendState.progressCurrent, ClientCurrent.pushToBuffer, CommandState.pushToBuffer,
        List.isEmpty_nil, if_true, ClientCurrent.finishSending, CommandState.finishSending,
        FinishSendingResult.mapState, Prod.mk.injEq] at h
      obtain ⟨rfl, rfl⟩ := h
      refine ⟨⟨_, _, _, hrem, .inl ⟨rfl, hreg, h3, hact.1, hact.2⟩⟩, ?_⟩
      have ht := ClientView.remaining_terminate (e := .commandSent hd cmd) hrem
      exact ⟨ht.2, ClientView.terminate_fresh _ _, ht.1⟩
    | some d =>
      simp only [ClientSendState.progressCurrent, ClientCurrent.pushToBuffer, CommandState.pushToBuffer,
        List.isEmpty_nil, if_true, ClientCurrent.finishSending, CommandState.finishSending,
        FinishSendingResult.mapState, Prod.mk.injEq] at h
      obtain ⟨rfl, rfl⟩ := h
      refine ⟨⟨hv, ⟨hreg, h1, h2, h3, h4, h5, hact⟩, hsent', hrem⟩, ⟨_, rfl⟩, ?_⟩
      obtain ⟨pre, ha, hb, hc⟩ := hact
      exact .inr ⟨_, _, _, hrem, hsent', .inl ⟨hreg, h3, pre, d, _, ha, hb, hc⟩⟩
  | waitingForLiteralAccepted d =>
    have hsent' : v.sent ≠ [] := by
      rcases hsent with h | h
      · exact h
      · cases h
    simp only [ClientSendState.progressCurrent, ClientCurrent.pushToBuffer, CommandState.pushToBuffer,
      List.isEmpty_nil, if_true, ClientCurrent.finishSending, CommandState.finishSending,
      FinishSendingResult.mapState, Prod.mk.injEq] at h
    obtain ⟨rfl, rfl⟩ := h
    refine ⟨⟨hv, ⟨hreg, h1, h2, h3, h4, h5, hact⟩, hsent', hrem⟩, ⟨_, rfl⟩, ?_⟩
    obtain ⟨pre, ha, hb, hc⟩ := hact
    exact .inr ⟨_, _, _, hrem, hsent', .inl ⟨hreg, h3, pre, d, _, ha, hb, hc⟩⟩

theorem SingleLine.wire_ne {fs : List Fragment} (h : SingleLine fs) : wire fs ≠ [] := by
  obtain ⟨d, rfl, hd⟩ := h
  simpa [wire, Fragment.data] using hd

theorem progressAuth {L : Lib} (hL : L.Lawful) {v : ClientView} {s s' : ClientSendState}
    {st : AuthenticateState} {r : Except (Interrupt Empty) (Option ClientSendEvent)}
    (hv : v.ended.length ≤ v.enqueued.length)
    (hrem : v.remaining = (ClientCurrent.authenticate st).queued :: queuePairs s.queuedMessages)
    (hok : AuthOk L v st) (h : s.progressCurrent (.authenticate st) = (s', r)) : SendResult L v s' r := by
  obtain ⟨hd, ca, act⟩ := st
  obtain ⟨h1, h2, h3, hact⟩ := hok
  have hline : wire (L.encodeCommand ca.toCommand) ≠ [] :=
    (hL.encodeAuthenticate ca.tag ca.mechanism ca.initialResponse).wire_ne
  have hisa : ca.toCommand.isAuthenticate = true := rfl
  cases act with
  | pushingAuthenticate b =>
    simp only at hact
    obtain ⟨ha, hb, hc, hd', rfl⟩ := hact
    simp only [ClientSendState.progressCurrent, ClientCurrent.pushToBuffer, AuthenticateState.pushToBuffer,
      List.isEmpty_iff, hline, if_false, Prod.mk.injEq] at h
    obtain ⟨rfl, rfl⟩ := h
    refine ⟨⟨hline, _, _, _, hrem, .inr (.inl ⟨hisa, .inl ⟨ha, hc, rfl⟩⟩)⟩, hv, ?_, by simp [hline], hrem⟩
    exact ⟨h1, h2, h3, hb, by simp [ha], hc, hd'⟩
  | waitingForAuthenticateSent =>
    simp only at hact
    obtain ⟨ha, hb, hc, hd'⟩ := hact
    simp only [ClientSendState.progressCurrent, ClientCurrent.pushToBuffer, AuthenticateState.pushToBuffer,
      List.isEmpty_nil, if_true, ClientCurrent.finishSending, AuthenticateState.finishSending,
      FinishSendingResult.mapState, Prod.mk.injEq] at h
    obtain ⟨rfl, rfl⟩ := h
    refine ⟨⟨_, _, _, hrem, .inr (.inl ⟨rfl, hisa, ha, hb, hc⟩)⟩, hv, ?_, by rw [← hb] at hline; exact hline, hrem⟩
    refine ⟨h1, h2, h3, rfl, ?_, ?_⟩
    · show v.sent = _ ++ wireDatas L v.datas
      rw [hb, hc]; simp [wireDatas]
    · show v.asked = v.datas.length
      rw [hd', hc]; rfl
  | waitingForAuthenticateResponse =>
    simp only at hact
    simp only [ClientSendState.progressCurrent, ClientCurrent.pushToBuffer, AuthenticateState.pushToBuffer,
      List.isEmpty_nil, if_true, ClientCurrent.finishSending, AuthenticateState.finishSending,
      FinishSendingResult.mapState, Prod.mk.injEq] at h
    obtain ⟨rfl, rfl⟩ := h
    have hs : v.sent ≠ [] := by rw [hact.2.1]; simp [hline]
    exact ⟨⟨hv, ⟨h1, h2, h3, hact⟩, hs, hrem⟩, .inl rfl,
      .inr ⟨_, _, _, hrem, hs, .inr (.inl ⟨hisa, hact.1, hact.2.1, .inl hact.2.2⟩)⟩⟩
  | waitingForAuthenticateDataSet =>
    simp only at hact
    simp only [ClientSendState.progressCurrent, ClientCurrent.pushToBuffer, AuthenticateState.pushToBuffer,
      List.isEmpty_nil, if_true, ClientCurrent.finishSending, AuthenticateState.finishSending,
      FinishSendingResult.mapState, Prod.mk.injEq] at h
    obtain ⟨rfl, rfl⟩ := h
    have hs : v.sent ≠ [] := by rw [hact.2.1]; simp [hline]
    exact ⟨⟨hv, ⟨h1, h2, h3, hact⟩, hs, hrem⟩, .inr rfl,
      .inr ⟨_, _, _, hrem, hs, .inr (.inl ⟨hisa, hact.1, hact.2.1, .inr hact.2.2⟩)⟩⟩
  | pushingAuthenticateData b =>
    simp only at hact
    obtain ⟨ha, ds, d, hb, rfl, hc, hd'⟩ := hact
    have hne : wire (L.encodeAuthenticateData d) ≠ [] := (hL.encodeData d).wire_ne
    simp only [ClientSendState.progressCurrent, ClientCurrent.pushToBuffer, AuthenticateState.pushToBuffer,
      List.isEmpty_iff, hne, if_false, Prod.mk.injEq] at h
    obtain ⟨rfl, rfl⟩ := h
    refine ⟨⟨hne, _, _, _, hrem, .inr (.inl ⟨hisa, .inr ⟨ds, d, hb, hd', hc, rfl⟩⟩)⟩, hv, ?_, by simp [hne], hrem⟩
    refine ⟨h1, h2, h3, ha, ?_, hd'⟩
    show v.sent ++ _ = _ ++ wireDatas L v.datas
    rw [hc, hb, wireDatas_append, wireDatas_singleton, List.append_assoc]
  | waitingForAuthenticateDataSent =>
    simp only at hact
    simp only [ClientSendState.progressCurrent, ClientCurrent.pushToBuffer, AuthenticateState.pushToBuffer,
      List.isEmpty_nil, if_true, ClientCurrent.finishSending, AuthenticateState.finishSending,
      FinishSendingResult.mapState, Prod.mk.injEq] at h
    obtain ⟨rfl, rfl⟩ := h
    have hs : v.sent ≠ [] := by rw [hact.2.1]; simp [hline]
    exact ⟨⟨hv, ⟨h1, h2, h3, hact⟩, hs, hrem⟩, .inl rfl,
      .inr ⟨_, _, _, hrem, hs, .inr (.inl ⟨hisa, hact.1, hact.2.1, .inl hact.2.2⟩)⟩⟩

theorem progressIdle {L : Lib} (hL : L.Lawful) {v : ClientView} {s s' : ClientSendState}
    {st : IdleState} {r : Except (Interrupt Empty) (Option ClientSendEvent)}
    (hv : v.ended.length ≤ v.enqueued.length)
    (hrem : v.remaining = (ClientCurrent.idle st).queued :: queuePairs s.queuedMessages)
    (hok : IdleOk L v st) (h : s.progressCurrent (.idle st) = (s', r)) : SendResult L v s' r := by
  obtain ⟨hd, tag, act⟩ := st
  obtain ⟨h1, h2, h3, hact⟩ := hok
  have hline : wire (L.encodeCommand ⟨tag, .idle⟩) ≠ [] := (hL.encodeIdle tag).wire_ne
  have hdone : wire L.encodeIdleDone ≠ [] := hL.encodeDone.wire_ne
  have hisi : (⟨tag, .idle⟩ : Command).isIdle = true := rfl
  cases act with
  | pushingIdle b =>
    simp only at hact
    obtain ⟨ha, hb, hc, hd', rfl⟩ := hact
    simp only [ClientSendState.progressCurrent, ClientCurrent.pushToBuffer, IdleState.pushToBuffer,
      List.isEmpty_iff, hline, if_false, Prod.mk.injEq] at h
    obtain ⟨rfl, rfl⟩ := h
    refine ⟨⟨hline, _, _, _, hrem, .inr (.inr ⟨hisi, h3, .inl ⟨ha, rfl⟩⟩)⟩, hv, ?_, by simp [hline], hrem⟩
    exact ⟨h1, h2, h3, hb, by simp [ha], hc, hd'⟩
  | waitingForIdleSent =>
    simp only at hact
    obtain ⟨ha, hb, hc, hd'⟩ := hact
    simp only [ClientSendState.progressCurrent, ClientCurrent.pushToBuffer, IdleState.pushToBuffer,
      List.isEmpty_nil, if_true, ClientCurrent.finishSending, IdleState.finishSending,
      FinishSendingResult.mapState, Prod.mk.injEq] at h
    obtain ⟨rfl, rfl⟩ := h
    refine ⟨⟨_, _, _, hrem, .inr (.inr (.inl ⟨rfl, hisi, ha, hb, h3, hc⟩))⟩, hv, ?_,
      by rw [← hb] at hline; exact hline, hrem⟩
    exact ⟨h1, h2, h3, rfl, hb, hc, hd'⟩
  | waitingForIdleResponse =>
    simp only at hact
    simp only [ClientSendState.progressCurrent, ClientCurrent.pushToBuffer, IdleState.pushToBuffer,
      List.isEmpty_nil, if_true, ClientCurrent.finishSending, IdleState.finishSending,
      FinishSendingResult.mapState, Prod.mk.injEq] at h
    obtain ⟨rfl, rfl⟩ := h
    have hs : v.sent ≠ [] := by rw [hact.2.1]; exact hline
    exact ⟨⟨hv, ⟨h1, h2, h3, hact⟩, hs, hrem⟩, .inl rfl,
      .inr ⟨_, _, _, hrem, hs, .inr (.inr ⟨hisi, hact.1, h3, hact.2.1, hact.2.2.2⟩)⟩⟩
  | waitingForIdleDoneSet =>
    simp only at hact
    simp only [ClientSendState.progressCurrent, ClientCurrent.pushToBuffer, IdleState.pushToBuffer,
      List.isEmpty_nil, if_true, ClientCurrent.finishSending, IdleState.finishSending,
      FinishSendingResult.mapState, Prod.mk.injEq] at h
    obtain ⟨rfl, rfl⟩ := h
    have hs : v.sent ≠ [] := by rw [hact.2.1]; exact hline
    exact ⟨⟨hv, ⟨h1, h2, h3, hact⟩, hs, hrem⟩, .inr rfl,
      .inr ⟨_, _, _, hrem, hs, .inr (.inr ⟨hisi, hact.1, h3, hact.2.1, hact.2.2.2⟩)⟩⟩
  | pushingIdleDone b =>
    simp only at hact
    obtain ⟨ha, hb, hc, hd', rfl⟩ := hact
    simp only [ClientSendState.progressCurrent, ClientCurrent.pushToBuffer, IdleState.pushToBuffer,
      List.isEmpty_iff, hdone, if_false, Prod.mk.injEq] at h
    obtain ⟨rfl, rfl⟩ := h
    refine ⟨⟨hdone, _, _, _, hrem, .inr (.inr ⟨hisi, h3, .inr ⟨hb, hc, hd', rfl⟩⟩)⟩, hv, ?_,
      by simp [hdone], hrem⟩
    refine ⟨h1, h2, h3, ha, ?_, hc, hd'⟩
    show v.sent ++ _ = _
    rw [hb]
  | waitingForIdleDoneSent =>
    simp only at hact
    obtain ⟨ha, hb, hc, hd'⟩ := hact
    simp only [ClientSendState.progressCurrent, ClientCurrent.pushToBuffer, IdleState.pushToBuffer,
      List.isEmpty_nil, if_true, ClientCurrent.finishSending, IdleState.finishSending,
      FinishSendingResult.mapState, Prod.mk.injEq] at h
    obtain ⟨rfl, rfl⟩ := h
    refine ⟨⟨_, _, _, hrem, .inr (.inr (.inr ⟨rfl, hisi, h3, hc, hd', hb⟩))⟩, ?_⟩
    have ht := ClientView.remaining_terminate (e := .idleDoneSent hd) hrem
    exact ⟨ht.2, ClientView.terminate_fresh _ _, ht.1⟩

theorem start_ok {L : Lib} {v : ClientView} {q : ClientQueued} {cur : ClientCurrent} (hf : v.Fresh)
    (h : q.start L = .ok cur) : CurOk L v cur ∧ cur.queued = (q.handle, q.command) ∧
      (∀ st, cur = .command st → st.activity = .pushingFragments none) := by
  obtain ⟨hd, tag, body⟩ := q
  obtain ⟨f1, f2, f3, f4, f5, f6, f7⟩ := hf
  unfold ClientQueued.start at h
  simp only at h
  split at h
  · rename_i m ir
    split at h
    · cases h
    · rename_i b hb
      obtain ⟨he, hw⟩ := singleLine_eq hb
      simp only [Except.ok.injEq] at h
      subst h
      exact ⟨⟨f2, f6, f7, f1, f3, f5, f4, hw.symm⟩, rfl, by simp⟩
  · split at h
    · cases h
    · rename_i b hb
      obtain ⟨he, hw⟩ := singleLine_eq hb
      simp only [Except.ok.injEq] at h
      subst h
      exact ⟨⟨f2, f4, f5, f1, f3, f6, f7, hw.symm⟩, rfl, by simp⟩
  · rename_i hna hni
    simp only [Except.ok.injEq] at h
    subst h
    refine ⟨⟨?_, f3, f4, f5, f6, f7, f1, f2, rfl⟩, rfl, ?_⟩
    · cases body with
      | authenticate m ir => exact (hna m ir rfl).elim
      | idle => exact (hni rfl).elim
      | other c => rfl
    · intro st hst
      simp only [ClientCurrent.command.injEq] at hst
      rw [← hst]

theorem sendNext_ok {L : Lib} (hL : L.Lawful) {v : ClientView} {s s' : ClientSendState}
    {r : Except (Interrupt Empty) (Option ClientSendEvent)}
    (hok : SendOk L v s) (h : s.next L = .ok (s', r)) : SendResult L v s' r := by
  unfold SendOk at hok
  unfold ClientSendState.next at h
  obtain ⟨hv, hok⟩ := hok
  split at h
  · rename_i cur hcur
    simp only [hcur] at hok
    simp only [Except.ok.injEq] at h
    cases cur with
    | command st => exact progressCommand hL hv hok.2.2 hok.1 (.inl hok.2.1) h
    | authenticate st => exact progressAuth hL hv hok.2.2 hok.1 h
    | idle st => exact progressIdle hL hv hok.2.2 hok.1 h
  · rename_i hcur
    simp only [hcur] at hok
    split at h
    · rename_i hq
      simp only [Except.ok.injEq, Prod.mk.injEq] at h
      obtain ⟨rfl, rfl⟩ := h
      refine ⟨⟨hv, by rw [hcur]; exact hok⟩, by simp [ClientSendState.AtRest, hcur, hq], .inl ⟨hok.1, ?_⟩⟩
      rw [hok.2, hq]; rfl
    · rename_i q rest hq
      split at h
      · cases h
      · rename_i cur hst
        obtain ⟨h1, h2, h3⟩ := start_ok hok.1 hst
        simp only [Except.ok.injEq] at h
        have hrem : v.remaining = cur.queued :: queuePairs rest := by
          rw [hok.2, hq, h2]; rfl
        cases cur with
        | command st => exact progressCommand hL hv hrem h1 (.inr (h3 _ rfl)) h
        | authenticate st => exact progressAuth hL hv hrem h1 h
        | idle st => exact progressIdle hL hv hrem h1 h

/-! ## Receiving preserves the invariant -/

/-- The result of dispatching a response, described for the observer. -/
def DispatchResult (L : Lib) (v : ClientView) (r : Response) (s' : ClientSendState) :
    Option ClientEvent → Prop
  | none => (∃ q, r = .continuationRequest q) ∧ v.route r = none ∧
      SendOk L { v with released := v.released + 1 } s'
  | some e => v.route r = some e ∧ SendOk L (v.event e) s'

theorem ClientView.current_none {v : ClientView} (h : v.sent = []) : v.current = none := by
  simp [current, h]

theorem ClientView.current_some {v : ClientView} {x : RawHandle × Command} {q : List (RawHandle × Command)}
    (h : v.sent ≠ []) (hr : v.remaining = x :: q) : v.current = some x := by
  simp [current, h, hr]

theorem dispatch_ok {L : Lib} {v : ClientView} {s s' : ClientSendState} {r : Response}
    {ev : Option ClientEvent} (hok : SendOk L v s) (hrest : s.AtRest)
    (h : dispatchResponse s r = (s', ev)) : DispatchResult L v r s' ev := by
  have hok0 := hok
  obtain ⟨queue, cur⟩ := s
  obtain ⟨hv, hok⟩ := hok
  cases cur with
  | none =>
    simp only at hok
    have hcur := ClientView.current_none hok.1.1
    cases r with
    | status st =>
      simp only [dispatchResponse, ClientSendState.maybeTerminate, Prod.mk.injEq] at h
      obtain ⟨rfl, rfl⟩ := h
      exact ⟨by simp [ClientView.route, hcur], hok0⟩
    | data d =>
      simp only [dispatchResponse, Prod.mk.injEq] at h
      obtain ⟨rfl, rfl⟩ := h
      exact ⟨rfl, hok0⟩
    | continuationRequest q =>
      simp only [dispatchResponse, ClientSendState.literalContinue, ClientSendState.authenticateContinue,
        ClientSendState.idleContinue, Prod.mk.injEq] at h
      obtain ⟨rfl, rfl⟩ := h
      exact ⟨by simp [ClientView.route, hcur], hok0⟩
  | some cur =>
    simp only at hok
    obtain ⟨hcok, hsent, hrem⟩ := hok
    have hcur := ClientView.current_some hsent hrem
    cases cur with
    | command st =>
      obtain ⟨hd, cmd, fs, act⟩ := st
      obtain ⟨d, hact⟩ := hrest
      simp only at hact
      subst hact
      obtain ⟨hreg, h1, h2, h3, h4, h5, pre, ha, hb, hc⟩ := hcok
      obtain ⟨tag, body⟩ := cmd
      obtain ⟨content, rfl⟩ : ∃ c, body = .other c := by
        cases body <;> simp_all [Command.isRegular]
      simp only [ClientCurrent.queued] at hcur
      cases r with
      | status st =>
        cases st with
        | untagged b =>
          simp only [dispatchResponse, ClientSendState.maybeTerminate, Prod.mk.injEq] at h
          obtain ⟨rfl, rfl⟩ := h
          exact ⟨by simp [ClientView.route], hok0⟩
        | bye c t =>
          simp only [dispatchResponse, ClientSendState.maybeTerminate, Prod.mk.injEq] at h
          obtain ⟨rfl, rfl⟩ := h
          exact ⟨by simp [ClientView.route], hok0⟩
        | tagged t b =>
          simp only [dispatchResponse, ClientSendState.maybeTerminate] at h
          by_cases hk : b.kind = .bad ∧ t = tag
          · simp only [hk, and_self, if_true, Prod.mk.injEq] at h
            obtain ⟨rfl, rfl⟩ := h
            refine ⟨by simp [ClientView.route, hcur, hk.1, hk.2], ?_⟩
            have ht := ClientView.remaining_terminate
              (e := .commandRejected hd ⟨tag, .other content⟩ (.tagged tag b)) hrem
            exact ⟨ht.2, ClientView.terminate_fresh _ _, ht.1⟩
          · simp only [if_neg hk, Prod.mk.injEq] at h
            obtain ⟨rfl, rfl⟩ := h
            refine ⟨?_, hok0⟩
            by_cases ht : t = tag
            · subst ht
              have hk' : ¬ b.kind = .bad := fun hh => hk ⟨hh, rfl⟩
              simp [ClientView.route, hcur, hk']
            · simp [ClientView.route, hcur, ht]
      | data d =>
        simp only [dispatchResponse, Prod.mk.injEq] at h
        obtain ⟨rfl, rfl⟩ := h
        exact ⟨rfl, hok0⟩
      | continuationRequest q =>
        simp only [dispatchResponse, ClientSendState.literalContinue, Prod.mk.injEq] at h
        obtain ⟨rfl, rfl⟩ := h
        refine ⟨⟨q, rfl⟩, by simp [ClientView.route, hcur], hv, ?_, hsent, hrem⟩
        refine ⟨rfl, h1, h2, h3, h4, h5, pre, ha, hb, ?_⟩
        show v.released + 1 = _
        rw [hc]
    | authenticate st =>
      obtain ⟨hd, ca, act⟩ := st
      obtain ⟨h1, h2, h3, hact⟩ := hcok
      simp only [ClientCurrent.queued, CommandAuthenticate.toCommand] at hcur
      cases r with
      | status st =>
        cases st with
        | untagged b =>
          simp only [dispatchResponse, ClientSendState.maybeTerminate, Prod.mk.injEq] at h
          obtain ⟨rfl, rfl⟩ := h
          exact ⟨by simp [ClientView.route], hok0⟩
        | bye c t =>
          simp only [dispatchResponse, ClientSendState.maybeTerminate, Prod.mk.injEq] at h
          obtain ⟨rfl, rfl⟩ := h
          exact ⟨by simp [ClientView.route], hok0⟩
        | tagged t b =>
          simp only [dispatchResponse, ClientSendState.maybeTerminate] at h
          by_cases ht : t = ca.tag
          · simp only [ht, if_true] at h
            have key : (s', ev) = (({ queuedMessages := queue, currentMessage := none } : ClientSendState),
                some (ClientEvent.authenticateStatusReceived hd ca (.tagged ca.tag b))) := by
              rw [← h]
              rcases b with ⟨_ | _ | _, c, tx⟩ <;> rfl
            simp only [Prod.mk.injEq] at key
            obtain ⟨rfl, rfl⟩ := key
            refine ⟨by simp [ClientView.route, hcur, ht], ?_⟩
            have ht := ClientView.remaining_terminate
              (e := .authenticateStatusReceived hd ca (.tagged ca.tag b)) hrem
            exact ⟨ht.2, ClientView.terminate_fresh _ _, ht.1⟩
          · simp only [if_neg ht, Prod.mk.injEq] at h
            obtain ⟨rfl, rfl⟩ := h
            refine ⟨?_, hok0⟩
            simp [ClientView.route, hcur, ht]
      | data d =>
        simp only [dispatchResponse, Prod.mk.injEq] at h
        obtain ⟨rfl, rfl⟩ := h
        exact ⟨rfl, hok0⟩
      | continuationRequest q =>
        rcases hrest with hr | hr
        · simp only at hr
          subst hr
          simp only at hact
          simp only [dispatchResponse, ClientSendState.literalContinue,
            ClientSendState.authenticateContinue, Prod.mk.injEq] at h
          obtain ⟨rfl, rfl⟩ := h
          refine ⟨by simp [ClientView.route, hcur, hact.2.2], hv, ?_, hsent, hrem⟩
          refine ⟨h1, h2, h3, hact.1, hact.2.1, ?_⟩
          show v.asked + 1 = _
          rw [hact.2.2]; rfl
        · simp only at hr
          subst hr
          simp only at hact
          simp only [dispatchResponse, ClientSendState.literalContinue,
            ClientSendState.authenticateContinue, ClientSendState.idleContinue, Prod.mk.injEq] at h
          obtain ⟨rfl, rfl⟩ := h
          refine ⟨by simp [ClientView.route, hcur, hact.2.2], hok0⟩
    | idle st =>
      obtain ⟨hd, tag, act⟩ := st
      obtain ⟨h1, h2, h3, hact⟩ := hcok
      simp only [ClientCurrent.queued] at hcur
      cases r with
      | status st =>
        cases st with
        | untagged b =>
          simp only [dispatchResponse, ClientSendState.maybeTerminate, Prod.mk.injEq] at h
          obtain ⟨rfl, rfl⟩ := h
          exact ⟨by simp [ClientView.route], hok0⟩
        | bye c t =>
          simp only [dispatchResponse, ClientSendState.maybeTerminate, Prod.mk.injEq] at h
          obtain ⟨rfl, rfl⟩ := h
          exact ⟨by simp [ClientView.route], hok0⟩
        | tagged t b =>
          simp only [dispatchResponse, ClientSendState.maybeTerminate] at h
          by_cases ht : t = tag
          · simp only [ht, if_true, Prod.mk.injEq] at h
            obtain ⟨rfl, rfl⟩ := h
            refine ⟨by simp [ClientView.route, hcur, ht], ?_⟩
            have ht := ClientView.remaining_terminate (e := .idleRejected hd (.tagged tag b)) hrem
            exact ⟨ht.2, ClientView.terminate_fresh _ _, ht.1⟩
          · simp only [if_neg ht, Prod.mk.injEq] at h
            obtain ⟨rfl, rfl⟩ := h
            refine ⟨?_, hok0⟩
            simp [ClientView.route, hcur, ht]
      | data d =>
        simp only [dispatchResponse, Prod.mk.injEq] at h
        obtain ⟨rfl, rfl⟩ := h
        exact ⟨rfl, hok0⟩
      | continuationRequest q =>
        rcases hrest with hr | hr
        · simp only at hr
          subst hr
          simp only at hact
          simp only [dispatchResponse, ClientSendState.literalContinue,
            ClientSendState.authenticateContinue, ClientSendState.idleContinue, Prod.mk.injEq] at h
          obtain ⟨rfl, rfl⟩ := h
          refine ⟨by simp [ClientView.route, hcur, hact.2.2.1], hv, ?_, hsent, hrem⟩
          exact ⟨h1, h2, h3, hact.1, hact.2.1, rfl, hact.2.2.2⟩
        · simp only at hr
          subst hr
          simp only at hact
          simp only [dispatchResponse, ClientSendState.literalContinue,
            ClientSendState.authenticateContinue, ClientSendState.idleContinue, Prod.mk.injEq] at h
          obtain ⟨rfl, rfl⟩ := h
          refine ⟨by simp [ClientView.route, hcur, hact.2.2.1], hok0⟩

/-! ## Steps preserve the invariant -/

open ReceiveState

/-- The relation between the observer's view and the client. -/
def Client.Inv (L : Lib) (relaxed : Bool) (v : ClientView) (c : Client) : Prop :=
  SendOk L v c.sendState ∧
  match c.receiveState with
  | .greeting s => v.greeted = false ∧ Reading (greetingFraming L relaxed) s ∧ s.maxMessageSize = none ∧
      v.given = v.consumed ++ s.readBuffer ∧ c.sendState.currentMessage = none
  | .response s => v.greeted = true ∧ Reading (responseFraming L relaxed) s ∧ s.maxMessageSize = none ∧
      v.given = v.consumed ++ s.readBuffer
  | .dummy => False

/-- How an error relates to the bytes it discards. -/
def FailedAs {ε μ : Type} (F : Framing ε μ) (e : ClientError) : Prop :=
  (∃ w x, e = .malformedMessage w ∧ IsUndecodable F w x) ∨ ∃ w, e = .expectedCrlfGotLf w ∧ IsBadLine F w

/-- What must hold when an item happens. -/
def Client.Guard (L : Lib) (relaxed : Bool) (v : ClientView) : CItem → Prop
  | .enqueue .. => True
  | .input _ => True
  | .setAuth d r => r = v.authReply d
  | .setDone r => r = v.doneReply
  | .output b => v.greeted = true ∧ OutputGuard L v b
  | .sent e => v.greeted = true ∧ SentGuard L v e
  | .received w e => (v.greeted = true → Waiting L v) ∧ (∃ rest, v.given = v.consumed ++ w ++ rest) ∧
      ((v.greeted = false ∧ ∃ g, e = .greetingReceived g ∧ IsMessage (greetingFraming L relaxed) w g) ∨
       (v.greeted = true ∧ ∃ r, v.route r = some e ∧ IsMessage (responseFraming L relaxed) w r))
  | .released w => v.greeted = true ∧ Waiting L v ∧ (∃ rest, v.given = v.consumed ++ w ++ rest) ∧
      ∃ q, v.route (.continuationRequest q) = none ∧
        IsMessage (responseFraming L relaxed) w (.continuationRequest q)
  | .failed e => (v.greeted = true → Waiting L v) ∧ (∃ rest, v.given = v.consumed ++ e.bytes ++ rest) ∧
      (v.greeted = false → FailedAs (greetingFraming L relaxed) e) ∧
      (v.greeted = true → FailedAs (responseFraming L relaxed) e)
  | .starved => (v.greeted = true → Waiting L v) ∧ ∃ rest, v.given = v.consumed ++ rest ∧
      (v.greeted = false → IsUnfinished (greetingFraming L relaxed) rest) ∧
      (v.greeted = true → IsUnfinished (responseFraming L relaxed) rest)

theorem ClientView.event_same (v : ClientView) (e : ClientEvent) :
    (v.event e).given = v.given ∧ (v.event e).consumed = v.consumed ∧
    (v.event e).greeted = (v.greeted || (match e with | .greetingReceived _ => true | _ => false)) := by
  cases e <;> simp [event, terminate, ClientEvent.isTerminal]

theorem ClientView.route_event {v : ClientView} {r : Response} {e : ClientEvent} (h : v.route r = some e) :
    ∀ g, e ≠ .greetingReceived g := by
  rintro g rfl
  unfold route at h
  split at h
  · cases h
  · split at h
    · split at h
      · split at h
        · split at h <;> cases h
        · cases h
        · cases h
      · cases h
    · cases h
  · split at h
    · cases h
    · split at h
      · cases h
      · split at h <;> cases h
      · split at h <;> cases h

theorem Client.progressSend_inv {L : Lib} (hL : L.Lawful) {relaxed : Bool} {v : ClientView} {c c1 : Client}
    {r : Except (Interrupt ClientError) (Option ClientEvent)} (h : c.Inv L relaxed v)
    (hs : progressSend L c = .ok (c1, r)) :
    (r = .ok none ∧ c1.Inv L relaxed v ∧ (v.greeted = true → c1.sendState.AtRest ∧ Waiting L v)) ∨
    (v.greeted = true ∧ ∃ e, r = .ok (some e) ∧ SentGuard L v e ∧ c1.Inv L relaxed (v.observe (.sent e))) ∨
    (v.greeted = true ∧ ∃ b, r = .error (.io (.output b)) ∧ OutputGuard L v b ∧
      c1.Inv L relaxed (v.observe (.output b))) := by
  obtain ⟨gen, snd, rcv⟩ := c
  obtain ⟨h1, h2⟩ := h
  cases rcv with
  | dummy => exact h2.elim
  | greeting st =>
    simp only [progressSend, Except.ok.injEq, Prod.mk.injEq] at hs
    obtain ⟨rfl, rfl⟩ := hs
    refine .inl ⟨rfl, ⟨h1, h2⟩, fun hg => ?_⟩
    simp only at h2
    rw [h2.1] at hg; cases hg
  | response st =>
    simp only at h2
    unfold progressSend at hs
    simp only at hs
    cases hn : snd.next L with
    | error p => simp [hn] at hs
    | ok x =>
      obtain ⟨snd', r'⟩ := x
      have hres := sendNext_ok hL h1 hn
      rcases r' with (⟨_ | b⟩ | e) | _ | e
      · exact hres.elim
      · simp only [hn, Except.ok.injEq, Prod.mk.injEq] at hs
        obtain ⟨rfl, rfl⟩ := hs
        exact .inr (.inr ⟨h2.1, b, rfl, hres.1, hres.2, h2⟩)
      · exact e.elim
      · simp only [hn, Except.ok.injEq, Prod.mk.injEq] at hs
        obtain ⟨rfl, rfl⟩ := hs
        exact .inl ⟨rfl, ⟨hres.1, h2⟩, fun _ => hres.2⟩
      · simp only [hn, Except.ok.injEq, Prod.mk.injEq] at hs
        obtain ⟨rfl, rfl⟩ := hs
        refine .inr (.inl ⟨h2.1, _, rfl, hres.1, hres.2, ?_⟩)
        obtain ⟨e1, e2, e3⟩ := v.event_same (sendEvent e)
        show (v.event _).greeted = true ∧ _ ∧ _ ∧ (v.event _).given = (v.event _).consumed ++ _
        rw [e1, e2, e3, h2.1]
        exact ⟨rfl, h2.2⟩

theorem take_consumed {w rest : Bytes} : (w ++ rest).take ((w ++ rest).length - rest.length) = w := by
  simp

theorem Client.progressReceive_inv {L : Lib} {relaxed : Bool} {v : ClientView} {c c1 : Client}
    {r : Except (Interrupt ClientError) (Option ClientEvent)} (h : c.Inv L relaxed v)
    (hw : v.greeted = true → c.sendState.AtRest ∧ Waiting L v)
    (hr : progressReceive L c = .ok (c1, r)) :
    (r = .error (.io .needMoreInput) ∧ Guard L relaxed v .starved ∧ c1.Inv L relaxed v) ∨
    (∃ e, r = .error (.error e) ∧ Guard L relaxed v (.failed e) ∧
      c1.Inv L relaxed (v.observe (.failed e))) ∨
    (∃ e, r = .ok (some e) ∧ Guard L relaxed v (.received (consumed c c1) e) ∧
      c1.Inv L relaxed (v.observe (.received (consumed c c1) e))) ∨
    (r = .ok none ∧ Guard L relaxed v (.released (consumed c c1)) ∧
      c1.Inv L relaxed (v.observe (.released (consumed c c1)))) := by
  obtain ⟨gen, snd, rcv⟩ := c
  obtain ⟨h1, h2⟩ := h
  cases rcv with
  | dummy => exact h2.elim
  | greeting st =>
    obtain ⟨hg, hrd, hmax, hgiv, hcur⟩ := h2
    have ho := receiveGreeting_outcome hrd hmax ClientError.malformedMessage
    have hwt : v.greeted = true → Waiting L v := fun hh => (hw hh).2
    have hng : ¬ v.greeted = true := by simp [hg]
    unfold progressReceive at hr
    simp only at hr
    generalize receiveGreeting L st = res at ho hr
    cases ho with
    | @message w rest m hb hm _ =>
      simp only [ClientReceiveState.changeState, ReceiveState.changeCodec, Except.ok.injEq, Prod.mk.injEq] at hr
      obtain ⟨rfl, rfl⟩ := hr
      refine .inr (.inr (.inl ⟨_, rfl, ?_⟩))
      have hc : ∀ x : Client, buffer x = rest → consumed ⟨gen, snd, .greeting st⟩ x = w := by
        intro x hx
        rw [consumed, hx]
        simp only [buffer, hb]
        exact take_consumed
      rw [hc _ rfl]
      refine ⟨⟨hwt, ⟨rest, ?_⟩, .inl ⟨hg, m, rfl, hm⟩⟩, ?_⟩
      · rw [hgiv, hb, List.append_assoc]
      · refine ⟨h1, rfl, ?_, hmax, ?_⟩
        · have : st.crlfRelaxed = (responseFraming L relaxed).relaxed := hrd.1
          simp only [withReadBuffer]
          rw [this]
          exact reading_fresh
        · show v.given = (v.consumed ++ w) ++ rest
          rw [hgiv, hb, List.append_assoc]
    | @malformed w rest e hb hm _ =>
      simp only [Except.ok.injEq, Prod.mk.injEq] at hr
      obtain ⟨rfl, rfl⟩ := hr
      refine .inr (.inl ⟨_, rfl, ⟨hwt, ⟨rest, ?_⟩, fun _ => .inl ⟨w, e, rfl, hm⟩, fun hh => (hng hh).elim⟩, ?_⟩)
      · show v.given = v.consumed ++ w ++ rest
        rw [hgiv, hb, List.append_assoc]
      · refine ⟨h1, hg, ?_, hmax, ?_, hcur⟩
        · have : st.crlfRelaxed = (greetingFraming L relaxed).relaxed := hrd.1
          rw [this]; exact reading_fresh
        · show v.given = (v.consumed ++ w) ++ rest
          rw [hgiv, hb, List.append_assoc]
    | @badLine w rest hb hm _ =>
      simp only [Except.ok.injEq, Prod.mk.injEq] at hr
      obtain ⟨rfl, rfl⟩ := hr
      refine .inr (.inl ⟨_, rfl, ⟨hwt, ⟨rest, ?_⟩, fun _ => .inr ⟨w, rfl, hm⟩, fun hh => (hng hh).elim⟩, ?_⟩)
      · show v.given = v.consumed ++ w ++ rest
        rw [hgiv, hb, List.append_assoc]
      · refine ⟨h1, hg, ?_, hmax, ?_, hcur⟩
        · have : st.crlfRelaxed = (greetingFraming L relaxed).relaxed := hrd.1
          rw [this]; exact reading_fresh
        · show v.given = (v.consumed ++ w) ++ rest
          rw [hgiv, hb, List.append_assoc]
    | tooLong a b c => rw [hmax] at c; cases c
    | needMore a b c d e f =>
      simp only [Except.ok.injEq, Prod.mk.injEq] at hr
      obtain ⟨rfl, rfl⟩ := hr
      refine .inl ⟨rfl, ⟨hwt, st.readBuffer, hgiv, fun _ => e, fun hh => (hng hh).elim⟩, h1, hg, d, ?_, ?_, hcur⟩
      · rw [b, hmax]
      · rw [c, hgiv]
    | panic => simp at hr
  | response st =>
    obtain ⟨hg, hrd, hmax, hgiv⟩ := h2
    have ho := receiveResponse_outcome hrd hmax ClientError.malformedMessage
    have hwt : Waiting L v := (hw hg).2
    have hng : ¬ v.greeted = false := by simp [hg]
    have hrel : st.crlfRelaxed = (responseFraming L relaxed).relaxed := hrd.1
    unfold progressReceive at hr
    simp only at hr
    generalize receiveResponse L st = res at ho hr
    cases ho with
    | @message w rest m hb hm _ =>
      simp only [Except.ok.injEq, Prod.mk.injEq] at hr
      obtain ⟨rfl, rfl⟩ := hr
      have hd := dispatch_ok (s' := (dispatchResponse snd m).1) (ev := (dispatchResponse snd m).2)
        h1 (hw hg).1 rfl
      have hc : ∀ x : Client, buffer x = rest → consumed ⟨gen, snd, .response st⟩ x = w := by
        intro x hx
        rw [consumed, hx]
        simp only [buffer, hb]
        exact take_consumed
      rw [hc _ rfl]
      have hgiv2 : v.given = v.consumed ++ w ++ rest := by rw [hgiv, hb, List.append_assoc]
      generalize hev : (dispatchResponse snd m).2 = ev at *
      cases ev with
      | none =>
        obtain ⟨⟨q, rfl⟩, hro, hso⟩ := hd
        refine .inr (.inr (.inr ⟨rfl, ⟨hg, hwt, ⟨rest, hgiv2⟩, q, hro, hm⟩, hso, hg, ?_, hmax, hgiv2⟩))
        rw [hrel]; exact reading_fresh
      | some e =>
        obtain ⟨hro, hso⟩ := hd
        refine .inr (.inr (.inl ⟨e, rfl, ⟨fun _ => hwt, ⟨rest, hgiv2⟩, .inr ⟨hg, m, hro, hm⟩⟩, ?_, ?_⟩))
        · have e0 : SendOk L (v.event e) (dispatchResponse snd m).1 := hso
          have : SendOk L ({ v with consumed := v.consumed ++ w }.event e) (dispatchResponse snd m).1 := by
            revert e0
            cases e <;> exact id
          exact this
        · obtain ⟨e1, e2, e3⟩ := ClientView.event_same { v with consumed := v.consumed ++ w } e
          show (ClientView.event _ _).greeted = true ∧ _ ∧ _ ∧
            (ClientView.event _ _).given = (ClientView.event _ _).consumed ++ _
          rw [e1, e2, e3, hrel]
          exact ⟨by simp [hg], reading_fresh, hmax, hgiv2⟩
    | @malformed w rest e hb hm _ =>
      simp only [Except.ok.injEq, Prod.mk.injEq] at hr
      obtain ⟨rfl, rfl⟩ := hr
      refine .inr (.inl ⟨_, rfl, ⟨fun _ => hwt, ⟨rest, ?_⟩, fun hh => (hng hh).elim,
        fun _ => .inl ⟨w, e, rfl, hm⟩⟩, ?_⟩)
      · show v.given = v.consumed ++ w ++ rest
        rw [hgiv, hb, List.append_assoc]
      · refine ⟨h1, hg, ?_, hmax, ?_⟩
        · rw [hrel]; exact reading_fresh
        · show v.given = (v.consumed ++ w) ++ rest
          rw [hgiv, hb, List.append_assoc]
    | @badLine w rest hb hm _ =>
      simp only [Except.ok.injEq, Prod.mk.injEq] at hr
      obtain ⟨rfl, rfl⟩ := hr
      refine .inr (.inl ⟨_, rfl, ⟨fun _ => hwt, ⟨rest, ?_⟩, fun hh => (hng hh).elim,
        fun _ => .inr ⟨w, rfl, hm⟩⟩, ?_⟩)
      · show v.given = v.consumed ++ w ++ rest
        rw [hgiv, hb, List.append_assoc]
      · refine ⟨h1, hg, ?_, hmax, ?_⟩
        · rw [hrel]; exact reading_fresh
        · show v.given = (v.consumed ++ w) ++ rest
          rw [hgiv, hb, List.append_assoc]
    | tooLong a b c => rw [hmax] at c; cases c
    | needMore a b c d e f =>
      simp only [Except.ok.injEq, Prod.mk.injEq] at hr
      obtain ⟨rfl, rfl⟩ := hr
      refine .inl ⟨rfl, ⟨fun _ => hwt, st.readBuffer, hgiv, fun hh => (hng hh).elim, fun _ => e⟩, h1, hg, d, ?_, ?_⟩
      · rw [b, hmax]
      · rw [c, hgiv]
    | panic => simp at hr

theorem SendOk.fresh_or {L : Lib} {v : ClientView} {s : ClientSendState} (h : SendOk L v s) :
    (s.currentMessage = none ∧ v.current = none) ∨
      ∃ cur, s.currentMessage = some cur ∧ v.current = some cur.queued := by
  obtain ⟨-, h⟩ := h
  cases hc : s.currentMessage with
  | none =>
    rw [hc] at h
    exact .inl ⟨rfl, ClientView.current_none h.1.1⟩
  | some cur =>
    rw [hc] at h
    exact .inr ⟨cur, rfl, ClientView.current_some h.2.1 h.2.2⟩

theorem setAuth_ok {L : Lib} {v : ClientView} {s s' : ClientSendState} {d : AuthenticateData}
    {r : Except AuthenticateData RawHandle} (hok : SendOk L v s)
    (h : s.setAuthenticateData L d = .ok (s', r)) :
    r = v.authReply d ∧ SendOk L (v.observe (.setAuth d r)) s' ∧
      (s.currentMessage = none → s'.currentMessage = none) := by
  have hok0 := hok
  obtain ⟨queue, cur⟩ := s
  obtain ⟨hv, hok⟩ := hok
  cases cur with
  | none =>
    simp only [ClientSendState.setAuthenticateData, Except.ok.injEq, Prod.mk.injEq] at h
    obtain ⟨rfl, rfl⟩ := h
    have hcur := ClientView.current_none hok.1.1
    exact ⟨by simp [ClientView.authReply, hcur], hok0, fun _ => rfl⟩
  | some cur =>
    obtain ⟨hcok, hsent, hrem⟩ := hok
    have hcur := ClientView.current_some hsent hrem
    cases cur with
    | command st =>
      simp only [ClientSendState.setAuthenticateData, Except.ok.injEq, Prod.mk.injEq] at h
      obtain ⟨rfl, rfl⟩ := h
      have hreg := hcok.1
      refine ⟨?_, hok0, by simp⟩
      rw [ClientView.authReply, hcur]
      have ha : st.command.isAuthenticate = false := by
        unfold Command.isRegular at hreg
        unfold Command.isAuthenticate
        cases hb : st.command.body <;> simp [hb] at hreg ⊢
      simp [ClientCurrent.queued, ha]
    | idle st =>
      simp only [ClientSendState.setAuthenticateData, Except.ok.injEq, Prod.mk.injEq] at h
      obtain ⟨rfl, rfl⟩ := h
      refine ⟨?_, hok0, by simp⟩
      rw [ClientView.authReply, hcur]
      simp [ClientCurrent.queued, Command.isAuthenticate]
    | authenticate st =>
      obtain ⟨hd, ca, act⟩ := st
      obtain ⟨h1, h2, h3, hact⟩ := hcok
      have haut : ca.toCommand.isAuthenticate = true := rfl
      cases act with
      | waitingForAuthenticateDataSet =>
        simp only at hact
        unfold ClientSendState.setAuthenticateData at h
        simp only at h
        split at h
        · cases h
        · rename_i b hb
          obtain ⟨-, hw⟩ := singleLine_eq hb
          simp only [Except.ok.injEq, Prod.mk.injEq] at h
          obtain ⟨rfl, rfl⟩ := h
          refine ⟨?_, ⟨hv, ?_, hsent, hrem⟩, by simp⟩
          · rw [ClientView.authReply, hcur]
            simp only [ClientCurrent.queued, haut, hact.2.2, and_self, if_true]
          · refine ⟨h1, h2, h3, hact.1, v.datas, d, rfl, hw.symm, hact.2.1, ?_⟩
            show v.asked = (v.datas ++ [d]).length
            rw [hact.2.2]; simp
      | pushingAuthenticate b =>
        simp only [ClientSendState.setAuthenticateData, Except.ok.injEq, Prod.mk.injEq] at h
        obtain ⟨rfl, rfl⟩ := h
        exact (hsent hact.1).elim
      | waitingForAuthenticateSent =>
        simp only [ClientSendState.setAuthenticateData, Except.ok.injEq, Prod.mk.injEq] at h
        obtain ⟨rfl, rfl⟩ := h
        refine ⟨?_, hok0, by simp⟩
        rw [ClientView.authReply, hcur]
        simp only [ClientCurrent.queued, hact.2.2.1, hact.2.2.2]
        simp
      | waitingForAuthenticateResponse =>
        simp only [ClientSendState.setAuthenticateData, Except.ok.injEq, Prod.mk.injEq] at h
        obtain ⟨rfl, rfl⟩ := h
        refine ⟨?_, hok0, by simp⟩
        rw [ClientView.authReply, hcur]
        simp only [ClientCurrent.queued, hact.2.2]
        simp
      | pushingAuthenticateData b =>
        simp only [ClientSendState.setAuthenticateData, Except.ok.injEq, Prod.mk.injEq] at h
        obtain ⟨rfl, rfl⟩ := h
        obtain ⟨ha, ds, d', hb, rfl, hc, hd'⟩ := hact
        refine ⟨?_, hok0, by simp⟩
        rw [ClientView.authReply, hcur]
        simp only [ClientCurrent.queued, hd']
        simp
      | waitingForAuthenticateDataSent =>
        simp only [ClientSendState.setAuthenticateData, Except.ok.injEq, Prod.mk.injEq] at h
        obtain ⟨rfl, rfl⟩ := h
        refine ⟨?_, hok0, by simp⟩
        rw [ClientView.authReply, hcur]
        simp only [ClientCurrent.queued, hact.2.2]
        simp

theorem setDone_ok {L : Lib} {v : ClientView} {s s' : ClientSendState}
    {r : Option RawHandle} (hok : SendOk L v s)
    (h : s.setIdleDone L = .ok (s', r)) :
    r = v.doneReply ∧ SendOk L (v.observe (.setDone r)) s' ∧
      (s.currentMessage = none → s'.currentMessage = none) := by
  have hok0 := hok
  obtain ⟨queue, cur⟩ := s
  obtain ⟨hv, hok⟩ := hok
  cases cur with
  | none =>
    simp only [ClientSendState.setIdleDone, Except.ok.injEq, Prod.mk.injEq] at h
    obtain ⟨rfl, rfl⟩ := h
    have hcur := ClientView.current_none hok.1.1
    exact ⟨by simp [ClientView.doneReply, hcur], hok0, fun _ => rfl⟩
  | some cur =>
    obtain ⟨hcok, hsent, hrem⟩ := hok
    have hcur := ClientView.current_some hsent hrem
    cases cur with
    | command st =>
      simp only [ClientSendState.setIdleDone, Except.ok.injEq, Prod.mk.injEq] at h
      obtain ⟨rfl, rfl⟩ := h
      have hreg := hcok.1
      refine ⟨?_, hok0, by simp⟩
      rw [ClientView.doneReply, hcur]
      have ha : st.command.isIdle = false := by
        unfold Command.isRegular at hreg
        unfold Command.isIdle
        cases hb : st.command.body <;> simp [hb] at hreg ⊢
      simp [ClientCurrent.queued, ha]
    | authenticate st =>
      simp only [ClientSendState.setIdleDone, Except.ok.injEq, Prod.mk.injEq] at h
      obtain ⟨rfl, rfl⟩ := h
      refine ⟨?_, hok0, by simp⟩
      rw [ClientView.doneReply, hcur]
      simp [ClientCurrent.queued, Command.isIdle, CommandAuthenticate.toCommand]
    | idle st =>
      obtain ⟨hd, tag, act⟩ := st
      obtain ⟨h1, h2, h3, hact⟩ := hcok
      have hidl : (⟨tag, .idle⟩ : Command).isIdle = true := rfl
      cases act with
      | waitingForIdleDoneSet =>
        simp only at hact
        unfold ClientSendState.setIdleDone at h
        simp only at h
        split at h
        · cases h
        · rename_i b hb
          obtain ⟨-, hw⟩ := singleLine_eq hb
          simp only [Except.ok.injEq, Prod.mk.injEq] at h
          obtain ⟨rfl, rfl⟩ := h
          refine ⟨?_, ⟨hv, ?_, hsent, hrem⟩, by simp⟩
          · rw [ClientView.doneReply, hcur]
            simp only [ClientCurrent.queued, hidl, hact.2.2, and_self, if_true]
          · exact ⟨h1, h2, h3, hact.1, hact.2.1, hact.2.2.1, rfl, hw.symm⟩
      | pushingIdle b =>
        exact (hsent hact.1).elim
      | waitingForIdleSent =>
        simp only [ClientSendState.setIdleDone, Except.ok.injEq, Prod.mk.injEq] at h
        obtain ⟨rfl, rfl⟩ := h
        refine ⟨?_, hok0, by simp⟩
        rw [ClientView.doneReply, hcur]
        simp [hact.2.2.1]
      | waitingForIdleResponse =>
        simp only [ClientSendState.setIdleDone, Except.ok.injEq, Prod.mk.injEq] at h
        obtain ⟨rfl, rfl⟩ := h
        refine ⟨?_, hok0, by simp⟩
        rw [ClientView.doneReply, hcur]
        simp [hact.2.2.1]
      | pushingIdleDone b =>
        simp only [ClientSendState.setIdleDone, Except.ok.injEq, Prod.mk.injEq] at h
        obtain ⟨rfl, rfl⟩ := h
        refine ⟨?_, hok0, by simp⟩
        rw [ClientView.doneReply, hcur]
        simp [hact.2.2.2.1]
      | waitingForIdleDoneSent =>
        simp only [ClientSendState.setIdleDone, Except.ok.injEq, Prod.mk.injEq] at h
        obtain ⟨rfl, rfl⟩ := h
        refine ⟨?_, hok0, by simp⟩
        rw [ClientView.doneReply, hcur]
        simp [hact.2.2.2]

theorem ClientView.remaining_enqueue {v : ClientView} {x : RawHandle × Command}
    (h : v.ended.length ≤ v.enqueued.length) :
    ({ v with enqueued := v.enqueued ++ [x] } : ClientView).remaining = v.remaining ++ [x] := by
  unfold remaining
  rw [List.drop_append_of_le_length h]

/-- Every step is allowed by its guard and preserves the invariant. -/
theorem Client.step_inv {L : Lib} (hL : L.Lawful) {relaxed : Bool} {v : ClientView} {c c1 : Client}
    {i : CItem} (h : c.Inv L relaxed v) (hs : Step L c i c1) :
    Guard L relaxed v i ∧ c1.Inv L relaxed (v.observe i) := by
  cases hs with
  | @enqueue _ hd cmd he =>
    refine ⟨trivial, ?_⟩
    obtain ⟨gen, snd, rcv⟩ := c
    simp only [enqueueCommand, Prod.mk.injEq] at he
    obtain ⟨rfl, he2⟩ := he
    rw [he2]
    obtain ⟨⟨hv, h1⟩, h2⟩ := h
    refine ⟨⟨?_, ?_⟩, ?_⟩
    · show v.ended.length ≤ (v.enqueued ++ [(hd, cmd)]).length
      simp; omega
    · cases hc : snd.currentMessage with
      | none =>
        simp only [ClientSendState.enqueueCommand, hc] at h1 ⊢
        refine ⟨h1.1, ?_⟩
        show ClientView.remaining _ = _
        simp only [ClientView.observe]
        rw [ClientView.remaining_enqueue hv, h1.2]
        simp [queuePairs]
      | some cur =>
        simp only [ClientSendState.enqueueCommand, hc] at h1 ⊢
        refine ⟨?_, h1.2.1, ?_⟩
        · have := h1.1
          cases cur <;> exact this
        · simp only [ClientView.observe]
          rw [ClientView.remaining_enqueue hv, h1.2.2]
          simp [queuePairs]
    · cases rcv <;> exact h2
  | @input _ b he =>
    refine ⟨trivial, ?_⟩
    obtain ⟨gen, snd, rcv⟩ := c
    obtain ⟨h1, h2⟩ := h
    cases rcv with
    | dummy => exact h2.elim
    | greeting st =>
      simp only [enqueueInput, Except.ok.injEq] at he
      subst he
      obtain ⟨a, b', c', d, e⟩ := h2
      refine ⟨h1, a, b'.enqueue b, c', ?_, e⟩
      show v.given ++ b = v.consumed ++ (st.readBuffer ++ b)
      rw [d, List.append_assoc]
    | response st =>
      simp only [enqueueInput, Except.ok.injEq] at he
      subst he
      obtain ⟨a, b', c', d⟩ := h2
      refine ⟨h1, a, b'.enqueue b, c', ?_⟩
      show v.given ++ b = v.consumed ++ (st.readBuffer ++ b)
      rw [d, List.append_assoc]
  | @setAuth _ d r he =>
    obtain ⟨gen, snd, rcv⟩ := c
    obtain ⟨h1, h2⟩ := h
    unfold setAuthenticateData at he
    simp only at he
    split at he
    · cases he
    · rename_i s' r' heq
      simp only [Except.ok.injEq, Prod.mk.injEq] at he
      obtain ⟨rfl, rfl⟩ := he
      obtain ⟨ha, hb, hc⟩ := setAuth_ok h1 heq
      refine ⟨ha, hb, ?_⟩
      cases rcv with
      | dummy => exact h2.elim
      | greeting st =>
        obtain ⟨p1, p2, p3, p4, p5⟩ := h2
        cases r' <;> exact ⟨p1, p2, p3, p4, hc p5⟩
      | response st => cases r' <;> exact h2
  | @setDone _ r he =>
    obtain ⟨gen, snd, rcv⟩ := c
    obtain ⟨h1, h2⟩ := h
    unfold setIdleDone at he
    simp only at he
    split at he
    · cases he
    · rename_i s' r' heq
      simp only [Except.ok.injEq, Prod.mk.injEq] at he
      obtain ⟨rfl, rfl⟩ := he
      obtain ⟨ha, hb, hc⟩ := setDone_ok h1 heq
      refine ⟨ha, hb, ?_⟩
      cases rcv with
      | dummy => exact h2.elim
      | greeting st =>
        obtain ⟨p1, p2, p3, p4, p5⟩ := h2
        cases r' <;> exact ⟨p1, p2, p3, p4, hc p5⟩
      | response st => cases r' <;> exact h2
  | output he =>
    rcases progressSend_inv hL h he with ⟨h1, -⟩ | ⟨-, e, h1, -⟩ | ⟨hg, b, h1, h2, h3⟩
    · cases h1
    · cases h1
    · simp only [Except.error.injEq, Interrupt.io.injEq, Io.output.injEq] at h1
      subst h1
      exact ⟨⟨hg, h2⟩, h3⟩
  | starvedSend he =>
    rcases progressSend_inv hL h he with ⟨h1, -⟩ | ⟨-, e, h1, -⟩ | ⟨hg, b, h1, h2, h3⟩ <;> cases h1
  | failedSend he =>
    rcases progressSend_inv hL h he with ⟨h1, -⟩ | ⟨-, e, h1, -⟩ | ⟨hg, b, h1, h2, h3⟩ <;> cases h1
  | sent he =>
    rcases progressSend_inv hL h he with ⟨h1, -⟩ | ⟨hg, e, h1, h2, h3⟩ | ⟨hg, b, h1, h2, h3⟩
    · cases h1
    · cases h1
      exact ⟨⟨hg, h2⟩, h3⟩
    · cases h1
  | outputRecv he hr =>
    rcases progressSend_inv hL h he with ⟨-, h1, h2⟩ | ⟨hg, e, h1, h2, h3⟩ | ⟨hg, b, h1, h2, h3⟩
    · rcases progressReceive_inv h1 h2 hr with ⟨h3, -⟩ | ⟨e, h3, -⟩ | ⟨e, h3, -⟩ | ⟨h3, -⟩ <;> cases h3
    · cases h1
    · cases h1
  | starved he hr =>
    rcases progressSend_inv hL h he with ⟨-, h1, h2⟩ | ⟨hg, e, h1, h2, h3⟩ | ⟨hg, b, h1, h2, h3⟩
    · rcases progressReceive_inv h1 h2 hr with ⟨h3, h4⟩ | ⟨e, h3, -⟩ | ⟨e, h3, -⟩ | ⟨h3, -⟩
      · exact h4
      all_goals cases h3
    · cases h1
    · cases h1
  | failed he hr =>
    rcases progressSend_inv hL h he with ⟨-, h1, h2⟩ | ⟨hg, e, h1, h2, h3⟩ | ⟨hg, b, h1, h2, h3⟩
    · rcases progressReceive_inv h1 h2 hr with ⟨h3, -⟩ | ⟨e, h3, h4⟩ | ⟨e, h3, -⟩ | ⟨h3, -⟩
      · cases h3
      · cases h3; exact h4
      all_goals cases h3
    · cases h1
    · cases h1
  | received he hr =>
    rcases progressSend_inv hL h he with ⟨-, h1, h2⟩ | ⟨hg, e, h1, h2, h3⟩ | ⟨hg, b, h1, h2, h3⟩
    · rcases progressReceive_inv h1 h2 hr with ⟨h3, -⟩ | ⟨e, h3, -⟩ | ⟨e, h3, h4⟩ | ⟨h3, -⟩
      · cases h3
      · cases h3
      · cases h3; exact h4
      · cases h3
    · cases h1
    · cases h1
  | released he hr =>
    rcases progressSend_inv hL h he with ⟨-, h1, h2⟩ | ⟨hg, e, h1, h2, h3⟩ | ⟨hg, b, h1, h2, h3⟩
    · rcases progressReceive_inv h1 h2 hr with ⟨h3, -⟩ | ⟨e, h3, -⟩ | ⟨e, h3, -⟩ | ⟨h3, h4⟩
      · cases h3
      · cases h3
      · cases h3
      · exact h4
    · cases h1
    · cases h1

theorem Client.new_inv (L : Lib) (g : HandleGenerator) (o : ClientOptions) :
    (Client.new g o).Inv L o.crlfRelaxed ClientView.start :=
  ⟨⟨Nat.le_refl _, ⟨rfl, rfl, rfl, rfl, rfl, rfl, rfl⟩, rfl⟩, rfl,
    reading_fresh (F := greetingFraming L o.crlfRelaxed), rfl, rfl, rfl⟩

theorem Client.steps_inv {L : Lib} (hL : L.Lawful) {relaxed : Bool} {v : ClientView} {c c1 : Client}
    {T : List CItem} (h : c.Inv L relaxed v) (hs : Steps L c T c1) :
    c1.Inv L relaxed (T.foldl ClientView.observe v) := by
  induction hs generalizing v with
  | nil => exact h
  | cons a _ ih => exact ih (step_inv hL h a).2

/-- The invariant holds after every trace. -/
theorem Client.trace_inv {L : Lib} (hL : L.Lawful) {g : HandleGenerator} {o : ClientOptions}
    {ops : List ClientOp} {c : Client} {T : List CItem}
    (h : (Client.new g o).trace L ops = .ok (c, T)) : c.Inv L o.crlfRelaxed (ClientView.of T) :=
  steps_inv hL (new_inv L g o) (trace_steps h)

/-- Every item of every trace satisfies its guard. -/
theorem Client.trace_guard {L : Lib} (hL : L.Lawful) {g : HandleGenerator} {o : ClientOptions}
    {ops : List ClientOp} {c : Client} {T1 T2 : List CItem} {i : CItem}
    (h : (Client.new g o).trace L ops = .ok (c, T1 ++ i :: T2)) :
    Guard L o.crlfRelaxed (ClientView.of T1) i := by
  obtain ⟨c1, h1, h2⟩ := (trace_steps h).split
  cases h2 with
  | cons a _ => exact (step_inv hL (steps_inv hL (new_inv L g o) h1) a).1

end ImapFlow

import Verif.Proofs.ProxyJoint

/-!
# Events of the two connections of the proxy and AUTHENTICATE and IDLE
-/

namespace ImapFlow

/-- What the server side must expect when the client side reports an event. -/
def ClientEvent.Ready (ph : ServerPhase) : ClientEvent → Prop
  | .authenticateContinuationRequestReceived .. | .authenticateStatusReceived .. => ph = .authenticate
  | .idleAccepted .. | .idleRejected .. => ph = .idlePending
  | _ => True

/-- What the server side expects after the event of the client side was handled. -/
def ClientEvent.phaseAfter (ph : ServerPhase) : ClientEvent → ServerPhase
  | .authenticateStatusReceived .. | .idleRejected .. => .command
  | .idleAccepted .. => .idle
  | _ => ph

theorem ClientView.current_elim {v : ClientView} {x : RawHandle × Command} (h : v.current = some x) :
    v.sent ≠ [] ∧ ∃ q, v.remaining = x :: q := by
  unfold current at h
  split at h
  · cases h
  · rename_i hs
    refine ⟨hs, ?_⟩
    cases hr : v.remaining with
    | nil => rw [hr] at h; cases h
    | cons y q => rw [hr] at h; cases h; exact ⟨q, rfl⟩

/-- The events of the receiving side. -/
theorem ClientView.route_cases {v : ClientView} {r : Response} {e : ClientEvent} (h : v.route r = some e) :
    (∃ d, e = .dataReceived d) ∨ (∃ st, e = .statusReceived st) ∨
    (∃ c, r = .continuationRequest c ∧ e = .continuationRequestReceived c) ∨
    ∃ hd cmd, v.current = some (hd, cmd) ∧
      ((∃ st, e = .commandRejected hd cmd st ∧ cmd.isRegular = true) ∨
       (∃ ca st, e = .authenticateStatusReceived hd ca st ∧ cmd.isAuthenticate = true) ∨
       (∃ st, e = .idleRejected hd st ∧ cmd.isIdle = true) ∨
       (∃ c, e = .authenticateContinuationRequestReceived hd c ∧ cmd.isAuthenticate = true ∧ v.asked = v.datas.length) ∨
       (∃ c, e = .idleAccepted hd c ∧ cmd.isIdle = true ∧ v.accepted = false)) := by
  unfold route at h
  split at h
  · simp only [Option.some.injEq] at h
    exact .inl ⟨_, h.symm⟩
  · split at h
    · rename_i hd cmd tag body hc
      split at h
      · split at h
        · rename_i x hb
          split at h
          · simp only [Option.some.injEq] at h
            exact .inr (.inr (.inr ⟨hd, cmd, hc, .inl ⟨_, h.symm, by simp [Command.isRegular, hb]⟩⟩))
          · simp only [Option.some.injEq] at h
            exact .inr (.inl ⟨_, h.symm⟩)
        · rename_i hb
          simp only [Option.some.injEq] at h
          exact .inr (.inr (.inr ⟨hd, cmd, hc, .inr (.inl ⟨_, _, h.symm, by simp [Command.isAuthenticate, hb]⟩)⟩))
        · rename_i hb
          simp only [Option.some.injEq] at h
          exact .inr (.inr (.inr ⟨hd, cmd, hc, .inr (.inr (.inl ⟨_, h.symm, by simp [Command.isIdle, hb]⟩))⟩))
      · simp only [Option.some.injEq] at h
        exact .inr (.inl ⟨_, h.symm⟩)
    · simp only [Option.some.injEq] at h
      exact .inr (.inl ⟨_, h.symm⟩)
  · split at h
    · simp only [Option.some.injEq] at h
      exact .inr (.inr (.inl ⟨_, rfl, h.symm⟩))
    · rename_i hd cmd hc
      split at h
      · cases h
      · rename_i hb
        split at h
        · rename_i ha
          simp only [Option.some.injEq] at h
          exact .inr (.inr (.inr ⟨hd, cmd, hc, .inr (.inr (.inr (.inl ⟨_, h.symm, by simp [Command.isAuthenticate, hb], ha⟩)))⟩))
        · simp only [Option.some.injEq] at h
          exact .inr (.inr (.inl ⟨_, rfl, h.symm⟩))
      · rename_i hb
        split at h
        · simp only [Option.some.injEq] at h
          exact .inr (.inr (.inl ⟨_, rfl, h.symm⟩))
        · rename_i ha
          simp only [Option.some.injEq] at h
          exact .inr (.inr (.inr ⟨hd, cmd, hc, .inr (.inr (.inr (.inr ⟨_, h.symm, by simp [Command.isIdle, hb], by simpa using ha⟩)))⟩))

theorem InStep.asked_of {v : ClientView} {x : RawHandle × Command} {q : List (RawHandle × Command)}
    {L : Lib} {s : ClientSendState} (hS : SendOk L v s) (hr : v.remaining = x :: q) (hx : x.2.isAuthenticate = false) :
    ¬ v.asked = v.datas.length + 1 := by
  intro h
  obtain ⟨-, y, q', h1, h2⟩ := hS.asked h
  rw [hr] at h1
  cases h1
  rw [hx] at h2; cases h2

/-- A terminal event of a regular command or an ended IDLE. -/
theorem Joint.terminate {L : Lib} {w : ProxyWatch} {ph : ServerPhase} {v : ClientView} {s : ClientSendState}
    {e : ClientEvent} {x : RawHandle × Command} {q : List (RawHandle × Command)}
    (h : Joint w ph v) (hS : SendOk L v s) (hr : v.remaining = x :: q)
    (hx : x.2.isRegular = true ∨ (x.2.isIdle = true ∧ v.doneSet = true)) : Joint w ph (v.terminate e) := by
  have hxa : x.2.isAuthenticate = false := by
    rcases hx with hx | hx
    · exact (isRegular_not hx).2
    · exact (isIdle_not hx.1).2
  refine ⟨h.inStep.terminate hr hx, ?_, h.idling⟩
  have := InStep.asked_of hS hr hxa
  rw [← h.asked] at this
  constructor
  · intro hw; exact (this hw).elim
  · intro hw
    have : (0 : Nat) = 0 + 1 := hw
    cases this

/-- An event of the connection to the server. -/
theorem Joint.event {L : Lib} {relaxed : Bool} {w : ProxyWatch} {ph : ServerPhase} {v : ClientView}
    {s : ClientSendState} {i : CItem} {e : ClientEvent} (h : Joint w ph v) (hS : SendOk L v s)
    (hg : Client.Guard L relaxed v i) (hi : i.event? = some e) :
    (w.idling = true ∧ ∃ hd st, e = .idleRejected hd st) ∨
    (e.Ready ph ∧ Joint (w.observe (.server (.returned (.ok e)))) (e.phaseAfter ph) (v.observe i)) := by
  cases i with
  | sent e' =>
    cases hi
    obtain ⟨-, hd, cmd, q, hr, hg⟩ := hg
    right
    rcases hg with ⟨rfl, h1, -⟩ | ⟨rfl, -⟩ | ⟨rfl, -⟩ | ⟨rfl, h1, -, -, h2, -⟩
    · exact ⟨trivial, h.terminate hS hr (.inl h1)⟩
    · exact ⟨trivial, h.same ⟨rfl, rfl, rfl, rfl, rfl, rfl⟩⟩
    · exact ⟨trivial, h.same ⟨rfl, rfl, rfl, rfl, rfl, rfl⟩⟩
    · exact ⟨trivial, h.terminate hS hr (.inr ⟨h1, h2⟩)⟩
  | received b e' =>
    cases hi
    obtain ⟨hw, -, hg⟩ := hg
    rcases hg with ⟨-, g, rfl, -⟩ | ⟨hgr, r, hg, -⟩
    · exact .inr ⟨trivial, h.same ⟨rfl, rfl, rfl, rfl, rfl, rfl⟩⟩
    have hw := hw hgr
    have h' : Joint w ph { v with consumed := v.consumed ++ b } := h.same ⟨rfl, rfl, rfl, rfl, rfl, rfl⟩
    rcases ClientView.route_cases hg with ⟨d, rfl⟩ | ⟨st, rfl⟩ | ⟨c, -, rfl⟩ | ⟨hd, cmd, hc, hg⟩
    · exact .inr ⟨trivial, h'⟩
    · exact .inr ⟨trivial, h'⟩
    · exact .inr ⟨trivial, h'⟩
    obtain ⟨hs, q, hr⟩ := ClientView.current_elim hc
    have hS' : SendOk L { v with consumed := v.consumed ++ b } s := hS
    have hr' : ({ v with consumed := v.consumed ++ b } : ClientView).remaining = (hd, cmd) :: q := hr
    have notDone : cmd.isIdle = true → v.doneSet = false := by
      intro hid
      rcases hw with ⟨hf, -⟩ | ⟨hd', cmd', q', hr2, -, hw⟩
      · exact (hs hf.1).elim
      · rw [hr] at hr2
        cases hr2
        rcases hw with ⟨hw, -⟩ | ⟨hw, -⟩ | ⟨-, -, -, -, hw⟩
        · rw [(isIdle_not hid).1] at hw; cases hw
        · rw [(isIdle_not hid).2] at hw; cases hw
        · exact hw
    rcases hg with ⟨st, rfl, h1⟩ | ⟨ca, st, rfl, h1⟩ | ⟨st, rfl, h1⟩ | ⟨c, rfl, h1, h2⟩ | ⟨c, rfl, h1, h2⟩
    · exact .inr ⟨trivial, h'.terminate hS' hr' (.inl h1)⟩
    · obtain ⟨rfl, rfl⟩ := h.inStep.authenticate hr h1
      refine .inr ⟨rfl, ⟨?_, ?_, ?_⟩⟩
      · have hz : (v.observe (.received b (.authenticateStatusReceived hd ca st))).remaining = [] :=
          (ClientView.remaining_terminate hr').1
        show Settled _ (ClientView.remaining _)
        rw [hz]
        trivial
      · exact ⟨fun hw => (by cases hw), fun hw => by have : (0 : Nat) = 0 + 1 := hw; cases this⟩
      · exact ⟨fun hw => (by have := h.idling.mp hw; cases this), fun hw => by cases hw⟩
    · obtain ⟨rfl, h3⟩ := h.inStep.idleing hr h1 (notDone h1)
      rcases h3 with ⟨rfl, h3⟩ | ⟨rfl, h3⟩
      · refine .inr ⟨rfl, ⟨?_, ?_, ?_⟩⟩
        · have hz : (v.observe (.received b (.idleRejected hd st))).remaining = [] :=
            (ClientView.remaining_terminate hr').1
          show Settled _ (ClientView.remaining _)
          rw [hz]
          trivial
        · have := InStep.asked_of hS hr (isIdle_not h1).2
          rw [← h.asked] at this
          exact ⟨fun hw => (this hw).elim, fun hw => by have : (0 : Nat) = 0 + 1 := hw; cases this⟩
        · exact ⟨fun hw => (by have := h.idling.mp hw; cases this), fun hw => by cases hw⟩
      · exact .inl ⟨h.idling.mpr rfl, _, _, rfl⟩
    · obtain ⟨rfl, rfl⟩ := h.inStep.authenticate hr h1
      refine .inr ⟨rfl, ⟨h.inStep, ?_, h.idling⟩⟩
      exact ⟨fun _ => by show v.asked + 1 = v.datas.length + 1; rw [h2], fun _ => rfl⟩
    · obtain ⟨rfl, h3⟩ := h.inStep.idleing hr h1 (notDone h1)
      rcases h3 with ⟨rfl, h3⟩ | ⟨rfl, h3⟩
      · refine .inr ⟨rfl, ⟨⟨_, hr, h1, rfl, notDone h1⟩, h.asked, ?_⟩⟩
        exact ⟨fun _ => rfl, fun _ => rfl⟩
      · rw [h2] at h3; cases h3
  | _ => cases hi

/-! ## Events of the connection to the client -/

theorem Command.event_command (c : Command) : c.event.command? = some c := by
  obtain ⟨t, b⟩ := c
  cases b <;> rfl

theorem Command.event_passed (c : Command) : c.event.passed = some (.enqueueCommand c) := by
  obtain ⟨t, b⟩ := c
  cases b <;> rfl

/-- The events of a server with their effect on the phase. -/
theorem server_event_cases {L : Lib} {o : ServerOptions} {v : ServerView} {i : SItem} {e : ServerEvent}
    (hg : Server.Guard L o v i) (hi : i.event? = some e) :
    (e.command? = none ∧ i.phase v.phase = v.phase ∧ ((∃ g, e = .greetingSent g) ∨ ∃ h r, e = .responseSent h r)) ∨
    (v.phase = .command ∧ i.phase v.phase = e.phase .command ∧ ∃ c : Command, e = c.event) ∨
    (v.phase = .authenticate ∧ i.phase v.phase = .authenticate ∧ ∃ d, e = .authenticateDataReceived d) ∨
    (v.phase = .idle ∧ i.phase v.phase = .command ∧ e = .idleDoneReceived) := by
  cases i with
  | sent e' =>
    cases hi
    obtain ⟨-, m, -, hm⟩ := hg
    left
    cases m with
    | greeting g => cases hm; exact ⟨rfl, rfl, .inl ⟨_, rfl⟩⟩
    | response h r =>
      cases h with
      | none => cases hm
      | some h => cases hm; exact ⟨rfl, rfl, .inr ⟨_, _, rfl⟩⟩
  | received b e' =>
    cases hi
    obtain ⟨-, -, -, hg, -⟩ := hg
    right
    show (v.phase = .command ∧ e.phase v.phase = _ ∧ _) ∨ (v.phase = .authenticate ∧ e.phase v.phase = _ ∧ _) ∨
      (v.phase = .idle ∧ e.phase v.phase = _ ∧ _)
    cases hp : v.phase with
    | command =>
      rw [hp] at hg
      obtain ⟨c, -, rfl⟩ := hg
      exact .inl ⟨rfl, rfl, c, rfl⟩
    | authenticate =>
      rw [hp] at hg
      obtain ⟨c, -, rfl⟩ := hg
      exact .inr (.inl ⟨rfl, rfl, _, rfl⟩)
    | idlePending => rw [hp] at hg; exact hg.elim
    | idle =>
      rw [hp] at hg
      obtain ⟨-, rfl⟩ := hg
      exact .inr (.inr ⟨rfl, rfl, rfl⟩)
  | _ => cases hi

theorem Settled.snoc {d : Bool} {q : List (RawHandle × Command)} {x : RawHandle × Command} (h : Settled d q)
    (hx : x.2.isRegular = true) : Settled d (q ++ [x]) := by
  cases q with
  | nil => exact ⟨.inl hx, by simp⟩
  | cons y q =>
    refine ⟨h.1, fun z hz => ?_⟩
    rcases List.mem_append.mp hz with hz | hz
    · exact h.2 z hz
    · rw [List.mem_singleton.mp hz]; exact hx

/-- A command from the client is enqueued for the server. -/
theorem Joint.command {L : Lib} {w : ProxyWatch} {v : ClientView} {s : ClientSendState} (h : Joint w .command v)
    (hS : SendOk L v s) (hd : RawHandle) (c : Command) :
    Joint w (c.event.phase .command) (v.observe (.enqueue hd c)) := by
  have hrem : (v.observe (.enqueue hd c)).remaining = v.remaining ++ [(hd, c)] := ClientView.remaining_enqueue hS.1
  have hs := h.inStep
  have hid : ∀ ph : ServerPhase, ph ≠ .idle → (w.idling = true ↔ ph = .idle) := by
    intro ph hph
    exact ⟨fun hw => (by have := h.idling.mp hw; cases this), fun hw => (hph hw).elim⟩
  obtain ⟨t, b⟩ := c
  cases b with
  | other x =>
    refine ⟨?_, h.asked, hid _ (by simp [Command.event, ServerEvent.phase])⟩
    show Settled _ (ClientView.remaining _)
    rw [hrem]
    exact hs.snoc rfl
  | authenticate m ir =>
    exact ⟨⟨_, _, hrem, hs, rfl⟩, h.asked, hid _ (by simp [Command.event, ServerEvent.phase])⟩
  | idle =>
    refine ⟨⟨_, _, hrem, hs, rfl, fun hq => ?_⟩, h.asked, hid _ (by simp [Command.event, ServerEvent.phase])⟩
    have hf := hS.fresh hq
    exact ⟨hf.2.2.2.2.2.1, hf.2.2.2.2.2.2⟩

/-- Authenticate data from the client. -/
theorem Joint.data {L : Lib} {w : ProxyWatch} {v : ClientView} {s : ClientSendState} (h : Joint w .authenticate v)
    (hS : SendOk L v s) (d : AuthenticateData) :
    (w.asked = false ∧ v.authReply d = .error d) ∨
    ∃ hd, v.authReply d = .ok hd ∧
      Joint (w.observe (.client (.returned (.ok (.authenticateDataReceived d))))) .authenticate
        (v.observe (.setAuth d (.ok hd))) := by
  by_cases ha : v.asked = v.datas.length + 1
  · right
    obtain ⟨hs, x, q, hr, hx⟩ := hS.asked ha
    refine ⟨x.1, ?_, h.inStep, ?_, h.idling⟩
    · rw [ClientView.authReply, ClientView.current_some hs hr]
      exact if_pos ⟨hx, ha⟩
    · constructor
      · intro hw; cases hw
      · intro hw
        have hw : v.asked = (v.datas ++ [d]).length + 1 := hw
        rw [List.length_append, List.length_singleton] at hw
        omega
  · left
    refine ⟨?_, ?_⟩
    · cases hw : w.asked with
      | false => rfl
      | true => exact (ha (h.asked.mp hw)).elim
    · unfold ClientView.authReply
      split
      · rw [if_neg fun hx => ha hx.2]
      · rfl

/-- DONE from the client. -/
theorem Joint.done {L : Lib} {w : ProxyWatch} {v : ClientView} {s : ClientSendState} (h : Joint w .idle v)
    (hS : SendOk L v s) :
    ∃ hd, v.doneReply = some hd ∧
      Joint (w.observe (.client (.returned (.ok .idleDoneReceived)))) .command (v.observe (.setDone (some hd))) := by
  obtain ⟨x, hr, hx, ha, hdn⟩ := h.inStep
  refine ⟨x.1, ?_, ?_, h.asked, ?_⟩
  · rw [ClientView.doneReply, ClientView.current_some (hS.accepted ha) hr]
    exact if_pos ⟨hx, ha, hdn⟩
  · show Settled true v.remaining
    rw [hr]
    exact ⟨.inr ⟨hx, rfl⟩, by simp⟩
  · exact ⟨fun hw => (by cases hw), fun hw => by cases hw⟩

end ImapFlow

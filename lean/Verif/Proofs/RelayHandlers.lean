import Verif.Proofs.ProxyHandlers
import Verif.Proofs.RelayCoupled
import Verif.Proofs.StreamCalls

/-!
# The event handlers of the proxy, as calls on the other side
-/

namespace ImapFlow

variable {L : Lib} {g : HandleGenerator}

/-- The items of the call that belongs to an event. -/
theorem passed_items {c c' : Client} {e : ServerEvent} {J : List CItem} (h : c.trace L e.passed.toList = .ok (c', J)) :
    J.map CItem.op? = e.passed.toList.map some ∧ clientOutput J = [] := by
  cases e with
  | authenticateDataReceived d =>
    have hp : (ServerEvent.authenticateDataReceived d).passed.toList = [.setAuthenticateData d] := rfl
    rw [hp] at h ⊢
    cases hs : c.setAuthenticateData L d with
    | error p => simp [Client.trace, Client.callTrace, hs, Except.map] at h
    | ok x =>
      obtain ⟨c1, r⟩ := x
      simp only [Client.trace, Client.callTrace, hs, Except.map, Except.ok.injEq, Prod.mk.injEq] at h
      obtain ⟨rfl, rfl⟩ := h
      exact ⟨rfl, rfl⟩
  | idleDoneReceived =>
    have hp : ServerEvent.idleDoneReceived.passed.toList = [.setIdleDone] := rfl
    rw [hp] at h ⊢
    cases hs : c.setIdleDone L with
    | error p => simp [Client.trace, Client.callTrace, hs, Except.map] at h
    | ok x =>
      obtain ⟨c1, r⟩ := x
      simp only [Client.trace, Client.callTrace, hs, Except.map, Except.ok.injEq, Prod.mk.injEq] at h
      obtain ⟨rfl, rfl⟩ := h
      exact ⟨rfl, rfl⟩
  | _ => cases h; exact ⟨rfl, rfl⟩

/-- `handle_client_event` does nothing else than the call that belongs to the event. -/
theorem handleClientEvent_passed {c c' : Client} {e : ServerEvent} {J : List CItem}
    (h : c.trace L e.passed.toList = .ok (c', J)) (hJ : ∀ j, J = [j] → j.Succeeds) :
    handleClientEvent L (.ok e) c = .ok (c', e.passed.toList, .continue) := by
  cases e with
  | authenticateDataReceived d =>
    have hp : (ServerEvent.authenticateDataReceived d).passed.toList = [.setAuthenticateData d] := rfl
    rw [hp] at h ⊢
    cases hs : c.setAuthenticateData L d with
    | error p => simp [Client.trace, Client.callTrace, hs, Except.map] at h
    | ok x =>
      obtain ⟨c1, r⟩ := x
      simp only [Client.trace, Client.callTrace, hs, Except.map, Except.ok.injEq, Prod.mk.injEq] at h
      obtain ⟨rfl, rfl⟩ := h
      cases r with
      | error d' => exact (hJ _ rfl).elim
      | ok hd => simp only [handleClientEvent, hs, unwrap]
  | idleDoneReceived =>
    have hp : ServerEvent.idleDoneReceived.passed.toList = [.setIdleDone] := rfl
    rw [hp] at h ⊢
    cases hs : c.setIdleDone L with
    | error p => simp [Client.trace, Client.callTrace, hs, Except.map] at h
    | ok x =>
      obtain ⟨c1, r⟩ := x
      simp only [Client.trace, Client.callTrace, hs, Except.map, Except.ok.injEq, Prod.mk.injEq] at h
      obtain ⟨rfl, rfl⟩ := h
      simp only [handleClientEvent, hs]
  | _ => cases h; rfl

theorem passed_allowed (e : ServerEvent) : e.passed.toList.length ≤ 1 ∧ ∀ op ∈ e.passed.toList, op.Allowed := by
  cases e <;> simp [ServerEvent.passed, ClientOp.Allowed]

theorem answer_allowed (e : ClientEvent) : e.answer.toList.length ≤ 1 ∧ ∀ op ∈ e.answer.toList, op.Allowed := by
  refine ⟨by cases e.answer <;> simp, ?_⟩
  have hr : ∀ r : Response, r.enqueue.Allowed := by intro r; cases r <;> exact ⟨nofun, nofun⟩
  intro op hop
  cases e <;> simp [ClientEvent.answer] at hop <;> first
    | (obtain ⟨a, -, rfl⟩ := hop; exact hr a)
    | (subst hop; exact ⟨nofun, nofun⟩)

/-- `handle_server_event` does nothing else than the call that belongs to the event. -/
theorem handleServerEvent_answered (hL : L.Lawful) (hP : L.Proxyable) {o : ServerOptions} (hO : ServerOptions.Built L o)
    {gr : Greeting} {ops : List ServerOp} {s : Server} {V : List SItem}
    (ht : (Server.new g o gr).trace L ops = .ok (s, V)) {e : ClientEvent} (hr : e.Ready (serverPhase V))
    (hm : ∀ r, e = .continuationRequestReceived r → ∃ i rem, L.decodeResponse i = .ok (rem, .continuationRequest r)) :
    ∃ s' J, handleServerEvent L (.ok e) s = .ok (s', e.answer.toList, .continue) ∧
      s.trace L e.answer.toList = .ok (s', J) ∧ J.map SItem.op? = e.answer.toList.map some ∧ serverOutput J = [] := by
  have none : ∀ {e : ClientEvent}, handleServerEvent L (.ok e) s = .ok (s, [], .continue) → e.answer = none →
      ∃ s' J, handleServerEvent L (.ok e) s = .ok (s', e.answer.toList, .continue) ∧
      s.trace L e.answer.toList = .ok (s', J) ∧ J.map SItem.op? = e.answer.toList.map some ∧ serverOutput J = [] := by
    intro e h1 h2
    exact ⟨s, [], by rw [h1, h2]; rfl, by rw [h2]; rfl, by rw [h2]; rfl, rfl⟩
  have one : ∀ {e : ClientEvent} {op : ServerOp} {s' : Server} {i : SItem},
      handleServerEvent L (.ok e) s = .ok (s', [op], .continue) → s.callTrace L op = .ok (s', [i]) →
      e.answer = some op → i.op? = some op → i.outputs = [] →
      ∃ s' J, handleServerEvent L (.ok e) s = .ok (s', e.answer.toList, .continue) ∧
      s.trace L e.answer.toList = .ok (s', J) ∧ J.map SItem.op? = e.answer.toList.map some ∧ serverOutput J = [] := by
    intro e op s' i h1 h2 h3 h4 h5
    refine ⟨s', [i], by rw [h1, h3]; rfl, by rw [h3]; exact Server.trace_one h2, by rw [h3]; simp [h4], ?_⟩
    simp [serverOutput, h5]
  have hl : ∀ op, ∃ x, s.callTrace L op = .ok x := Server.callTrace_safe hL hO.usable (Server.trace_inv ht)
  have hg : ∀ {op i s'}, s.callTrace L op = .ok (s', [i]) → Server.Guard L o (ServerView.of gr V) i := by
    intro op i s' h
    exact Server.trace_guard (T2 := []) (Server.trace_join ht (Server.trace_one h))
  cases e with
  | greetingReceived => exact none rfl rfl
  | commandSent => exact none rfl rfl
  | authenticateStarted => exact none rfl rfl
  | idleCommandSent => exact none rfl rfl
  | idleDoneSent => exact none rfl rfl
  | commandRejected hd cmd st =>
    exact one (op := .enqueueStatus (rejection cmd.tag st)) (i := .enqueue _ (.status (rejection cmd.tag st)))
      (by simp only [handleServerEvent, modifiedStatus_eq hP]; rfl) rfl rfl rfl rfl
  | dataReceived d =>
    exact one (op := .enqueueData (filterCapabilitiesInData d)) (i := .enqueue _ (.data (filterCapabilitiesInData d)))
      rfl rfl (congrArg (fun r : Response => some r.enqueue) (filterCapabilitiesInData_eq d).symm) rfl rfl
  | statusReceived st =>
    exact one (op := .enqueueStatus (filterCapabilitiesInStatus st))
      (i := .enqueue _ (.status (filterCapabilitiesInStatus st)))
      rfl rfl (by rw [filterCapabilitiesInStatus_eq]; rfl) rfl rfl
  | continuationRequestReceived r =>
    obtain ⟨i, rem, hd⟩ := hm r rfl
    obtain ⟨r', h1, h2⟩ := filterCapabilitiesInContinuation_eq hP hd
    exact one (op := .enqueueContinuationRequest r') (i := .enqueue _ (.continuationRequest r'))
      (by simp only [handleServerEvent, h1]; rfl) rfl (congrArg (fun r : Response => some r.enqueue) h2.symm) rfl rfl
  | authenticateContinuationRequestReceived hd r =>
    have hc : s.callTrace L (.authenticateContinue r) =
      .ok ((s.authenticateContinue r).1, [.authContinue r (s.authenticateContinue r).2]) := rfl
    obtain ⟨hd, hx⟩ := Granted.ok (hg hc) (by rw [ServerView.of_phase]; exact hr)
    exact one (s' := (s.authenticateContinue r).1) (i := .authContinue r (.ok hd)) (by
      simp only [handleServerEvent]
      rw [show s.authenticateContinue r = ((s.authenticateContinue r).1, .ok hd) from by rw [← hx]]
      rfl) (by rw [hc, hx]) rfl rfl rfl
  | authenticateStatusReceived hd ca r =>
    obtain ⟨x, hx⟩ := hl (.authenticateFinish r)
    cases hy : s.authenticateFinish r with
    | error p => simp [Server.callTrace, hy, Except.map] at hx
    | ok y =>
      obtain ⟨st, res⟩ := y
      have hc : s.callTrace L (.authenticateFinish r) = .ok (st, [.authFinish r res]) := by
        simp [Server.callTrace, hy, Except.map]
      obtain ⟨hd, rfl⟩ := Granted.ok (hg hc) (by rw [ServerView.of_phase]; exact hr)
      exact one (by simp only [handleServerEvent, hy, unwrap]) hc rfl rfl rfl
  | idleAccepted hd r =>
    obtain ⟨x, hx⟩ := hl (.idleAccept r)
    cases hy : s.idleAccept r with
    | error p => simp [Server.callTrace, hy, Except.map] at hx
    | ok y =>
      obtain ⟨st, res⟩ := y
      have hc : s.callTrace L (.idleAccept r) = .ok (st, [.idleAccept r res]) := by
        simp [Server.callTrace, hy, Except.map]
      obtain ⟨hd, rfl⟩ := Granted.ok (hg hc) (by rw [ServerView.of_phase]; exact hr)
      exact one (by simp only [handleServerEvent, hy, unwrap]) hc rfl rfl rfl
  | idleRejected hd r =>
    obtain ⟨x, hx⟩ := hl (.idleReject r)
    cases hy : s.idleReject r with
    | error p => simp [Server.callTrace, hy, Except.map] at hx
    | ok y =>
      obtain ⟨st, res⟩ := y
      have hc : s.callTrace L (.idleReject r) = .ok (st, [.idleReject r res]) := by
        simp [Server.callTrace, hy, Except.map]
      obtain ⟨hd, rfl⟩ := Granted.ok (hg hc) (by rw [ServerView.of_phase]; exact hr)
      exact one (by simp only [handleServerEvent, hy, unwrap]) hc rfl rfl rfl

/-! ## Calls of the proxy on its streams -/

section
variable {K : Type} {paired : K → K → Prop}

/-- What `select!` does with the other branch. -/
theorem FullStream.dropFuture_idle {σ ε ev ι : Type} {c : FullStream K σ} (hc : c.Sound) :
    ∃ D : List (FullItem ε ev ι), c.dropFuture = ({ c with ctl := .at .idle }, D) ∧ (D = [] ∨ D = [.stream .dropped]) := by
  obtain ⟨t, rb, wb, st, ctl⟩ := c
  obtain ⟨h1, h2, h3⟩ := hc.alive
  rcases ctl with ctl | _ | _
  · cases ctl with
    | idle => exact ⟨[], rfl, .inl rfl⟩
    | dead => exact (h1 rfl).elim
    | reading => exact ⟨_, rfl, .inr rfl⟩
    | racing => exact ⟨_, rfl, .inr rfl⟩
    | flushing => exact ⟨_, rfl, .inr rfl⟩
  · exact (h2 rfl).elim
  · exact (h3 rfl).elim

theorem StreamNet.Tracks.clientIdle {sn : StreamNet K} {n : Net} (h : Tracks paired sn n) :
    Tracks paired { sn with client := { sn.client with ctl := .at .idle } } n :=
  ⟨h.client, h.server, ⟨h.clientSound.readBuffer, nofun, by simp⟩, h.serverSound, h.toServer, h.toClient⟩

theorem StreamNet.Tracks.serverIdle {sn : StreamNet K} {n : Net} (h : Tracks paired sn n) :
    Tracks paired { sn with server := { sn.server with ctl := .at .idle } } n :=
  ⟨h.client, h.server, h.clientSound, ⟨h.serverSound.readBuffer, nofun, by simp⟩, h.toServer, h.toClient⟩

/-- The calls of the owner that are not left to the stream. -/
theorem StreamNet.Tracks.clientPassed {sn : StreamNet K} {n : Net} (h : Tracks paired sn n) {ops : List ClientOp}
    (ho : ops.length ≤ 1) (ha : ∀ op ∈ ops, op.Allowed) {c' : Client} {J : List CItem}
    (ht : n.client.trace L ops = .ok (c', J)) (hJ : clientOutput J = []) :
    ∃ n', n.run L (ops.map .client) = .ok (n', J.map .client) ∧ n'.client = c' ∧
      Tracks paired { sn with client := { sn.client with ctl := .at .idle, state := c' } } n' := by
  have ht' : Tracks paired { sn with client := { sn.client with ctl := .at .idle, state := c' } } { n with client := c' } :=
    ⟨rfl, h.server, ⟨h.clientSound.readBuffer, nofun, by simp⟩, h.serverSound, h.toServer, h.toClient⟩
  refine ⟨_, ?_, rfl, ht'⟩
  match ops, ho, ha, ht with
  | [], _, _, ht => cases ht; rfl
  | [op], _, ha, ht =>
    cases hc : n.client.callTrace L op with
    | error p => simp [Client.trace, hc] at ht
    | ok x =>
      obtain ⟨c1, U⟩ := x
      simp only [Client.trace, hc, List.append_nil, Except.ok.injEq, Prod.mk.injEq] at ht
      obtain ⟨rfl, rfl⟩ := ht
      have hs : n.step L (.client op) = n.callClient L op := by
        have := ha op (by simp)
        cases op <;> first | exact (this.1 rfl).elim | exact (this.2 _ rfl).elim | rfl
      simp [Net.run, hs, Net.callClient, hc, hJ]

/-- The calls of the owner that are not left to the stream. -/
theorem StreamNet.Tracks.serverPassed {sn : StreamNet K} {n : Net} (h : Tracks paired sn n) {ops : List ServerOp}
    (ho : ops.length ≤ 1) (ha : ∀ op ∈ ops, op.Allowed) {s' : Server} {J : List SItem}
    (ht : n.server.trace L ops = .ok (s', J)) (hJ : serverOutput J = []) :
    ∃ n', n.run L (ops.map .server) = .ok (n', J.map .server) ∧ n'.server = s' ∧
      Tracks paired { sn with server := { sn.server with ctl := .at .idle, state := s' } } n' := by
  have ht' : Tracks paired { sn with server := { sn.server with ctl := .at .idle, state := s' } } { n with server := s' } :=
    ⟨h.client, rfl, h.clientSound, ⟨h.serverSound.readBuffer, nofun, by simp⟩, h.toServer, h.toClient⟩
  refine ⟨_, ?_, rfl, ht'⟩
  match ops, ho, ha, ht with
  | [], _, _, ht => cases ht; rfl
  | [op], _, ha, ht =>
    cases hc : n.server.callTrace L op with
    | error p => simp [Server.trace, hc] at ht
    | ok x =>
      obtain ⟨c1, U⟩ := x
      simp only [Server.trace, hc, List.append_nil, Except.ok.injEq, Prod.mk.injEq] at ht
      obtain ⟨rfl, rfl⟩ := ht
      have hs : n.step L (.server op) = n.callServer L op := by
        have := ha op (by simp)
        cases op <;> first | exact (this.1 rfl).elim | exact (this.2 _ rfl).elim | rfl
      simp [Net.run, hs, Net.callServer, hc, hJ]

end

end ImapFlow

import Verif.Proofs.ProxyEvents
import Verif.Proofs.ProxyFilter

/-!
# The event handlers of the proxy
-/

namespace ImapFlow

variable {L : Lib} {g : HandleGenerator}

/-! ## The options of the server -/

theorem proxyServerOptions_ok (hL : L.Lawful) (hP : L.Proxyable) :
    ∃ o, proxyServerOptions L = .ok o ∧ ServerOptions.Built L o := by
  have hd : ∃ o, ServerOptions.default L = .ok o := by
    have ht : L.ccrBasicFromText none ServerOptions.defaultText = some (.basic none ServerOptions.defaultText) := by
      simp only [Lib.ccrBasicFromText, Option.isSome_none, ServerOptions.defaultText, hL.defaultText, if_true]
    simp [ServerOptions.default, ht]
  obtain ⟨o, hd⟩ := hd
  have ha : ∀ o : ServerOptions, ∃ o', o.setLiteralAcceptText L literalAcceptText = .ok (o', .ok ()) := by
    intro o
    have ht : L.ccrBasicFromStr none literalAcceptText = some (.basic none literalAcceptText) := by
      simp only [Lib.ccrBasicFromStr, Option.isSome_none, hP.accept, Bool.and_self, if_true]
    simp [ServerOptions.setLiteralAcceptText, ht]
  have hr : ∀ o : ServerOptions, ∃ o', o.setLiteralRejectText L literalRejectText = .ok (o', .ok ()) := by
    intro o
    have ht : L.ccrBasicFromStr none literalRejectText = some (.basic none literalRejectText) := by
      simp only [Lib.ccrBasicFromStr, Option.isSome_none, hP.reject, Bool.and_self, if_true]
    simp [ServerOptions.setLiteralRejectText, ht]
  obtain ⟨o1, h1⟩ := ha o
  obtain ⟨o2, h2⟩ := hr o1
  refine ⟨o2, ?_, .reject (.accept (.default hd) h1) h2⟩
  simp only [proxyServerOptions, hd, h1, unwrap, h2]

/-! ## Events of the connection to the server -/

section
variable {K : Type} {tls : Option (Tls K)} {o : ServerOptions} {gr : Greeting} {S : List (FullItem ServerError ServerEvent ServerOp)}
  {c : FullStream K Server} {V : List SItem}

theorem ServerLink.guard (h : ServerLink L tls g o gr S c V) {op : ServerOp} {i : SItem} {st : Server}
    (ht : c.state.callTrace L op = .ok (st, [i])) : Server.Guard L o (ServerView.of gr V) i := by
  obtain ⟨ops, h2⟩ := h.trace
  have h3 : (Server.new g o gr).trace L (ops ++ [op]) = .ok (st, V ++ [i]) := by
    rw [Server.trace_append, h2]
    simp [Server.trace, ht]
  exact Server.trace_guard h3

theorem ServerLink.safe (hL : L.Lawful) (hO : ServerOptions.Built L o) (h : ServerLink L tls g o gr S c V) (op : ServerOp) :
    ∃ x, c.state.callTrace L op = .ok x := by
  obtain ⟨ops, h2⟩ := h.trace
  exact Server.callTrace_safe hL hO.usable (Server.trace_inv h2) op

theorem Granted.ok {α : Type} {p : Prop} {a : α} {r : Except α RawHandle} (h : Granted p a r) (hp : p) : ∃ hd, r = .ok hd := by
  rcases h with ⟨-, h⟩ | ⟨h, -⟩
  · exact h
  · exact (h hp).elim

theorem Granted.error {α : Type} {p : Prop} {a : α} {r : Except α RawHandle} (h : Granted p a r) (hp : ¬ p) : r = .error a := by
  rcases h with ⟨h, -⟩ | ⟨-, h⟩
  · exact (hp h).elim
  · exact h

theorem ServerLink.authContinue (h : ServerLink L tls g o gr S c V) (r : ContinuationRequest)
    (hp : serverPhase V = .authenticate) :
    ∃ st hd, c.state.authenticateContinue r = (st, .ok hd) ∧
      c.state.callTrace L (.authenticateContinue r) = .ok (st, [.authContinue r (.ok hd)]) := by
  have hc : c.state.callTrace L (.authenticateContinue r) =
    .ok ((c.state.authenticateContinue r).1, [.authContinue r (c.state.authenticateContinue r).2]) := rfl
  have hg := h.guard hc
  obtain ⟨hd, hx⟩ := Granted.ok hg (by rw [ServerView.of_phase, hp])
  rw [hx] at hc
  exact ⟨_, hd, by rw [← hx], hc⟩

theorem ServerLink.authFinish (hL : L.Lawful) (hO : ServerOptions.Built L o) (h : ServerLink L tls g o gr S c V) (r : Status)
    (hp : serverPhase V = .authenticate) :
    ∃ st hd, c.state.authenticateFinish r = .ok (st, .ok hd) ∧
      c.state.callTrace L (.authenticateFinish r) = .ok (st, [.authFinish r (.ok hd)]) := by
  obtain ⟨x, hx⟩ := h.safe hL hO (.authenticateFinish r)
  cases hy : c.state.authenticateFinish r with
  | error p => simp [Server.callTrace, hy, Except.map] at hx
  | ok y =>
    obtain ⟨st, res⟩ := y
    have hc : c.state.callTrace L (.authenticateFinish r) = .ok (st, [.authFinish r res]) := by
      simp [Server.callTrace, hy, Except.map]
    obtain ⟨hd, rfl⟩ := Granted.ok (h.guard hc) (by rw [ServerView.of_phase, hp])
    exact ⟨_, hd, rfl, hc⟩

theorem ServerLink.accept (hL : L.Lawful) (hO : ServerOptions.Built L o) (h : ServerLink L tls g o gr S c V)
    (r : ContinuationRequest) (hp : serverPhase V = .idlePending) :
    ∃ st hd, c.state.idleAccept r = .ok (st, .ok hd) ∧
      c.state.callTrace L (.idleAccept r) = .ok (st, [.idleAccept r (.ok hd)]) := by
  obtain ⟨x, hx⟩ := h.safe hL hO (.idleAccept r)
  cases hy : c.state.idleAccept r with
  | error p => simp [Server.callTrace, hy, Except.map] at hx
  | ok y =>
    obtain ⟨st, res⟩ := y
    have hc : c.state.callTrace L (.idleAccept r) = .ok (st, [.idleAccept r res]) := by
      simp [Server.callTrace, hy, Except.map]
    obtain ⟨hd, rfl⟩ := Granted.ok (h.guard hc) (by rw [ServerView.of_phase, hp])
    exact ⟨_, hd, rfl, hc⟩

theorem ServerLink.reject (hL : L.Lawful) (hO : ServerOptions.Built L o) (h : ServerLink L tls g o gr S c V)
    (r : Status) :
    ∃ st res, c.state.idleReject r = .ok (st, res) ∧ Granted (serverPhase V = .idlePending) r res ∧
      c.state.callTrace L (.idleReject r) = .ok (st, [.idleReject r res]) := by
  obtain ⟨x, hx⟩ := h.safe hL hO (.idleReject r)
  cases hy : c.state.idleReject r with
  | error p => simp [Server.callTrace, hy, Except.map] at hx
  | ok y =>
    obtain ⟨st, res⟩ := y
    have hc : c.state.callTrace L (.idleReject r) = .ok (st, [.idleReject r res]) := by
      simp [Server.callTrace, hy, Except.map]
    have hg : Granted ((ServerView.of gr V).phase = .idlePending) r res := h.guard hc
    rw [ServerView.of_phase] at hg
    exact ⟨_, res, rfl, hg, hc⟩

/-- `handle_server_event` succeeds and enqueues exactly the response that belongs to the event. -/
theorem handleServerEvent_ok (hL : L.Lawful) (hP : L.Proxyable) (hO : ServerOptions.Built L o)
    (h : ServerLink L tls g o gr S c V) (hc : c.ctl = .at .idle) {e : ClientEvent} (hr : e.Ready (serverPhase V))
    (hm : ∀ r, e = .continuationRequestReceived r → ∃ i rem, L.decodeResponse i = .ok (rem, .continuationRequest r)) :
    ∃ st calls V', handleServerEvent L (.ok e) c.state = .ok (st, calls, .continue) ∧
      calls = e.answer.toList ∧
      ServerLink L tls g o gr (S ++ calls.map fun op => .stream (.user op)) { c with state := st } (V ++ V') ∧
      serverPhase (V ++ V') = e.phaseAfter (serverPhase V) := by
  have none : ∀ {e : ClientEvent}, handleServerEvent L (.ok e) c.state = .ok (c.state, [], .continue) →
      e.answer = none → e.phaseAfter (serverPhase V) = serverPhase V →
      ∃ st calls V', handleServerEvent L (.ok e) c.state = .ok (st, calls, .continue) ∧
      calls = e.answer.toList ∧
      ServerLink L tls g o gr (S ++ calls.map fun op => .stream (.user op)) { c with state := st } (V ++ V') ∧
      serverPhase (V ++ V') = e.phaseAfter (serverPhase V) := by
    intro e h1 h2 h3
    refine ⟨_, _, [], h1, by rw [h2]; rfl, by simpa using h, by rw [List.append_nil, h3]⟩
  have one : ∀ {e : ClientEvent} {op : ServerOp} {st : Server} {i : SItem} {r : Response},
      handleServerEvent L (.ok e) c.state = .ok (st, [op], .continue) →
      c.state.callTrace L op = .ok (st, [i]) → op.response? = some r → e.answer = some op →
      i.given = [] → i.outputs = [] → i.event? = Option.none → userResponses [i] = [r] →
      i.phase (serverPhase V) = e.phaseAfter (serverPhase V) →
      ∃ st calls V', handleServerEvent L (.ok e) c.state = .ok (st, calls, .continue) ∧
      calls = e.answer.toList ∧
      ServerLink L tls g o gr (S ++ calls.map fun op => .stream (.user op)) { c with state := st } (V ++ V') ∧
      serverPhase (V ++ V') = e.phaseAfter (serverPhase V) := by
    intro e op st i r h1 h2 h3 h4 h5 h6 h7 h8 h9
    refine ⟨_, _, [i], h1, by rw [h4]; rfl, ?_, by rw [serverPhase_snoc, h9]⟩
    exact h.call hc h2 ⟨h5, h6, h7, by rw [h8, h3]; rfl⟩
  cases e with
  | greetingReceived => exact none rfl rfl rfl
  | commandSent => exact none rfl rfl rfl
  | authenticateStarted => exact none rfl rfl rfl
  | idleCommandSent => exact none rfl rfl rfl
  | idleDoneSent => exact none rfl rfl rfl
  | commandRejected hd cmd st =>
    exact one (op := .enqueueStatus (rejection cmd.tag st)) (i := .enqueue _ (.status (rejection cmd.tag st)))
      (by simp only [handleServerEvent, modifiedStatus_eq hP]; rfl) rfl rfl rfl rfl rfl rfl rfl rfl
  | dataReceived d =>
    exact one (op := .enqueueData (filterCapabilitiesInData d)) (i := .enqueue _ (.data (filterCapabilitiesInData d)))
      rfl rfl rfl (congrArg (fun r : Response => some r.enqueue) (filterCapabilitiesInData_eq d).symm) rfl rfl rfl rfl rfl
  | statusReceived st =>
    exact one (op := .enqueueStatus (filterCapabilitiesInStatus st))
      (i := .enqueue _ (.status (filterCapabilitiesInStatus st)))
      rfl rfl rfl (by rw [filterCapabilitiesInStatus_eq]; rfl) rfl rfl rfl rfl rfl
  | continuationRequestReceived r =>
    obtain ⟨i, rem, hd⟩ := hm r rfl
    obtain ⟨r', h1, h2⟩ := filterCapabilitiesInContinuation_eq hP hd
    exact one (op := .enqueueContinuationRequest r') (i := .enqueue _ (.continuationRequest r'))
      (by simp only [handleServerEvent, h1]; rfl) rfl rfl (congrArg (fun r : Response => some r.enqueue) h2.symm) rfl rfl rfl rfl rfl
  | authenticateContinuationRequestReceived hd r =>
    obtain ⟨st, hd', h1, h2⟩ := h.authContinue r hr
    exact one (by simp only [handleServerEvent, h1, unwrap]) h2 rfl rfl rfl rfl rfl rfl rfl
  | authenticateStatusReceived hd ca r =>
    obtain ⟨st, hd', h1, h2⟩ := h.authFinish hL hO r hr
    exact one (by simp only [handleServerEvent, h1, unwrap]) h2 rfl rfl rfl rfl rfl rfl rfl
  | idleAccepted hd r =>
    obtain ⟨st, hd', h1, h2⟩ := h.accept hL hO r hr
    exact one (by simp only [handleServerEvent, h1, unwrap]) h2 rfl rfl rfl rfl rfl rfl rfl
  | idleRejected hd r =>
    obtain ⟨st, res, h1, hg, h2⟩ := h.reject hL hO r
    obtain ⟨hd', rfl⟩ := hg.ok hr
    exact one (by simp only [handleServerEvent, h1, unwrap]) h2 rfl rfl rfl rfl rfl rfl rfl

/-- `handle_server_event` panics if an accepted IDLE is rejected. -/
theorem handleServerEvent_panic (hL : L.Lawful) (hO : ServerOptions.Built L o)
    (h : ServerLink L tls g o gr S c V) (hp : serverPhase V = .idle) (hd : RawHandle) (st : Status) :
    handleServerEvent L (.ok (.idleRejected hd st)) c.state = .error .unwrapFailed := by
  obtain ⟨s, res, h1, hg, -⟩ := h.reject hL hO st
  rw [hg.error (by rw [hp]; simp)] at h1
  simp only [handleServerEvent, h1, unwrap]

end

/-! ## Events of the connection to the client -/

section
variable {K : Type} {tls : Option (Tls K)} {o : ClientOptions} {S : List (FullItem ClientError ClientEvent ClientOp)} {s : FullStream K Client}
  {U : List CItem}

theorem ClientLink.guard (hL : L.Lawful) (h : ClientLink L tls g o S s U) {op : ClientOp} {i : CItem} {st : Client}
    (ht : s.state.callTrace L op = .ok (st, [i])) : Client.Guard L o.crlfRelaxed (ClientView.of U) i := by
  obtain ⟨ops, h2⟩ := h.trace
  have h3 : (Client.new g o).trace L (ops ++ [op]) = .ok (st, U ++ [i]) := by
    rw [Client.trace_append, h2]
    simp [Client.trace, ht]
  exact Client.trace_guard hL h3

theorem ClientLink.safe (hL : L.Lawful) (h : ClientLink L tls g o S s U) (op : ClientOp) :
    ∃ x, s.state.callTrace L op = .ok x := by
  obtain ⟨ops, h2⟩ := h.trace
  exact Client.callTrace_safe hL (Client.trace_inv hL h2) op

theorem ClientLink.sendOk (hL : L.Lawful) (h : ClientLink L tls g o S s U) :
    SendOk L (ClientView.of U) s.state.sendState := by
  obtain ⟨ops, h2⟩ := h.trace
  exact (Client.trace_inv hL h2).1

theorem ClientLink.setAuth (hL : L.Lawful) (h : ClientLink L tls g o S s U) (d : AuthenticateData) :
    ∃ st, s.state.setAuthenticateData L d = .ok (st, (ClientView.of U).authReply d) ∧
      s.state.callTrace L (.setAuthenticateData d) = .ok (st, [.setAuth d ((ClientView.of U).authReply d)]) := by
  obtain ⟨x, hx⟩ := h.safe hL (.setAuthenticateData d)
  cases hy : s.state.setAuthenticateData L d with
  | error p => simp [Client.callTrace, hy, Except.map] at hx
  | ok y =>
    obtain ⟨st, res⟩ := y
    have hc : s.state.callTrace L (.setAuthenticateData d) = .ok (st, [.setAuth d res]) := by
      simp [Client.callTrace, hy, Except.map]
    have hg : res = _ := h.guard hL hc
    subst hg
    exact ⟨_, rfl, hc⟩

theorem ClientLink.setDone (hL : L.Lawful) (h : ClientLink L tls g o S s U) :
    ∃ st, s.state.setIdleDone L = .ok (st, (ClientView.of U).doneReply) ∧
      s.state.callTrace L .setIdleDone = .ok (st, [.setDone (ClientView.of U).doneReply]) := by
  obtain ⟨x, hx⟩ := h.safe hL .setIdleDone
  cases hy : s.state.setIdleDone L with
  | error p => simp [Client.callTrace, hy, Except.map] at hx
  | ok y =>
    obtain ⟨st, res⟩ := y
    have hc : s.state.callTrace L .setIdleDone = .ok (st, [.setDone res]) := by
      simp [Client.callTrace, hy, Except.map]
    have hg : res = _ := h.guard hL hc
    subst hg
    exact ⟨_, rfl, hc⟩

/-- `handle_client_event` panics for unasked authenticate data; otherwise it succeeds, enqueues exactly the
received command and both sides stay in step. -/
theorem handleClientEvent_spec (hL : L.Lawful) (h : ClientLink L tls g o S s U) (hc : s.ctl = .at .idle)
    {w : ProxyWatch} {so : ServerOptions} {v : ServerView} {i : SItem} {e : ServerEvent}
    (hj : Joint w v.phase (ClientView.of U)) (hg : Server.Guard L so v i) (hi : i.event? = some e) :
    (w.asked = false ∧ (∃ d, e = .authenticateDataReceived d) ∧
      handleClientEvent L (.ok e) s.state = .error .unwrapFailed) ∨
    ((∀ d, e = .authenticateDataReceived d → w.asked = true) ∧
      ∃ st calls U', handleClientEvent L (.ok e) s.state = .ok (st, calls, .continue) ∧
      calls = e.passed.toList ∧
      ClientLink L tls g o (S ++ calls.map fun op => .stream (.user op)) { s with state := st } (U ++ U') ∧
      Joint (w.observe (.client (.returned (.ok e)))) (i.phase v.phase) (ClientView.of (U ++ U'))) := by
  have hS := h.sendOk hL
  rcases server_event_cases hg hi with ⟨-, h2, he⟩ | ⟨h1, h2, cmd, rfl⟩ | ⟨h1, h2, d, rfl⟩ | ⟨h1, h2, rfl⟩
  · right
    rw [h2]
    rcases he with ⟨x, rfl⟩ | ⟨x, y, rfl⟩
    · refine ⟨fun d hd => (by cases hd), _, _, [], rfl, rfl, ?_, ?_⟩
      · rw [List.append_nil]; exact (List.append_nil S).symm ▸ h
      · rw [List.append_nil]; exact hj
    · refine ⟨fun d hd => (by cases hd), _, _, [], rfl, rfl, ?_, ?_⟩
      · rw [List.append_nil]; exact (List.append_nil S).symm ▸ h
      · rw [List.append_nil]; exact hj
  · right
    rw [h1] at hj
    have hcall : s.state.callTrace L (.enqueueCommand cmd) =
      .ok ((s.state.enqueueCommand cmd).1, [.enqueue (s.state.enqueueCommand cmd).2 cmd]) := rfl
    refine ⟨fun d hd => ?_, (s.state.enqueueCommand cmd).1, [.enqueueCommand cmd],
      [.enqueue (s.state.enqueueCommand cmd).2 cmd], ?_, ?_, ?_, ?_⟩
    · obtain ⟨t, b⟩ := cmd
      cases b <;> cases hd
    · obtain ⟨t, b⟩ := cmd
      cases b <;> rfl
    · rw [Command.event_passed]; rfl
    · exact h.call hc hcall ⟨rfl, rfl, rfl, rfl⟩
    · rw [ClientView.of_snoc, h2]
      have hw : w.observe (.client (.returned (.ok cmd.event))) = w := by
        obtain ⟨t, b⟩ := cmd
        cases b <;> rfl
      rw [hw]
      exact hj.command hS _ cmd
  · rw [h1] at hj
    obtain ⟨st, h3, h4⟩ := h.setAuth hL d
    rcases hj.data hS d with ⟨h5, h6⟩ | ⟨hd, h5, h6⟩
    · left
      rw [h6] at h3
      exact ⟨h5, ⟨d, rfl⟩, by simp only [handleClientEvent, h3, unwrap]⟩
    · right
      have hw : w.asked = true := by
        cases hw : w.asked with
        | true => rfl
        | false =>
          have h7 : ¬ (ClientView.of U).asked = (ClientView.of U).datas.length + 1 := by
            rw [← hj.asked, hw]; simp
          unfold ClientView.authReply at h5
          split at h5
          · rw [if_neg fun hx => h7 hx.2] at h5; cases h5
          · cases h5
      rw [h5] at h3 h4
      refine ⟨fun _ _ => hw, st, [.setAuthenticateData d], [.setAuth d (.ok hd)], ?_, rfl, ?_, ?_⟩
      · simp only [handleClientEvent, h3, unwrap]
      · exact h.call hc h4 ⟨rfl, rfl, rfl, rfl⟩
      · rw [ClientView.of_snoc, h2]; exact h6
  · right
    rw [h1] at hj
    obtain ⟨st, h3, h4⟩ := h.setDone hL
    obtain ⟨hd, h5, h6⟩ := hj.done hS
    rw [h5] at h3 h4
    refine ⟨fun d hd => (by cases hd), st, [.setIdleDone], [.setDone (some hd)], ?_, rfl, ?_, ?_⟩
    · simp only [handleClientEvent, h3]
    · exact h.call hc h4 ⟨rfl, rfl, rfl, rfl⟩
    · rw [ClientView.of_snoc, h2]; exact h6

end

end ImapFlow

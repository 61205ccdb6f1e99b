import Verif.Spec.ProxyHeldSamples
import Verif.Proofs.ClientChunk
import Verif.Proofs.ServerChunk

/-!
# The proxy listens to one peer while the other one takes nothing
-/

namespace ImapFlow.ProxyHeldSample

open ClientSample (str ln g)
open ProxySample (run greet gs)

theorem of_proxy {x : Option (Proxy Nat × List ProxyItem)} {r w r' w' : Bytes} {s : Server} {c : Client} {ctl ctl' : FullCtl}
    (h : (x.bind fun x => parts x.1) = some (r, w, s, ctl, r', w', c, ctl')) :
    ∃ T, x = some (.conversation ⟨none, r, w, s, ctl⟩ ⟨none, r', w', c, ctl'⟩, T) := by
  match x with
  | none => cases h
  | some (p, T) =>
    refine ⟨T, ?_⟩
    simp only [Option.bind_some] at h
    unfold parts at h
    split at h
    · cases h; rfl
    · cases h

theorem run_append {p p' p'' : Proxy Nat} {as bs : List ProxyAct} {T T' : List ProxyItem} (h : p.run Toy.lib gs as = some (p', T))
    (h' : p'.run Toy.lib gs bs = some (p'', T')) : p.run Toy.lib gs (as ++ bs) = some (p'', T ++ T') := by
  induction as generalizing p T with
  | nil => cases h; simpa using h'
  | cons a as ih =>
    simp only [List.cons_append, Proxy.run] at h ⊢
    split at h
    · cases h
    rename_i p1 T1 h1
    split at h
    · cases h
    rename_i p2 T2 h2
    cases h
    rw [ih h2]
    simp

theorem of_stream {σ ε ev ι : Type} {x : Option (FullStream Nat σ × List (FullItem ε ev ι))} {r w : Bytes} {s : σ} {ctl : FullCtl}
    {n : Option (Except (StreamError ε) ev)}
    (h : (x.map fun x => (x.1.tls.isNone, x.1.readBuffer, x.1.writeBuffer, x.1.state, x.1.ctl, nextResult x.2)) =
      some (true, r, w, s, ctl, n)) :
    ∃ T, x = some (⟨none, r, w, s, ctl⟩, T) ∧ nextResult T = n := by
  match x, h with
  | some (⟨none, _, _, _, _⟩, T), h =>
    simp only [Option.map_some, Option.some.injEq, Prod.mk.injEq] at h
    obtain ⟨-, rfl, rfl, rfl, rfl, h'⟩ := h
    exact ⟨T, rfl, h'⟩
  | some (⟨some _, _, _, _, _⟩, T), h => simp at h

/-- A step on the connection to the client after which the proxy goes on. -/
theorem client_step {c c' : FullStream Nat Server} {s : FullStream Nat Client} {a : IoAct}
    {T : List (FullItem ServerError ServerEvent ServerOp)} (h : c.step (serverMachine Toy.lib) a.toStream = some (c', T))
    {i : StreamCtl} (hc : c'.ctl = .at i) (hi : i ≠ .dead) (hn : nextResult T = none) :
    ∃ U, (Proxy.conversation c s).run Toy.lib gs [.client a] = some (.conversation c' s, U) := by
  have h1 : c'.ctl ≠ .at .dead := by rw [hc]; simpa using hi
  have h2 : c'.ctl ≠ .hung := by rw [hc]; simp
  simp only [Proxy.run, Proxy.step, h, hn, h1, h2, if_false]
  exact ⟨_, rfl⟩

theorem client_event {c c' : FullStream Nat Server} {s : FullStream Nat Client} {a : IoAct}
    {T : List (FullItem ServerError ServerEvent ServerOp)} (h : c.step (serverMachine Toy.lib) a.toStream = some (c', T))
    (hc : c'.ctl = .at .idle) {r : Except (StreamError ServerError) ServerEvent} (hn : nextResult T = some r)
    {state : Client} {calls : List ClientOp}
    (he : handleClientEvent Toy.lib r (s.dropFuture (ε := ClientError) (ev := ClientEvent) (ι := ClientOp)).1.state =
      .ok (state, calls, .continue)) :
    ∃ U, (Proxy.conversation c s).run Toy.lib gs [.client a] =
      some (.conversation c' { (s.dropFuture (ε := ClientError) (ev := ClientEvent) (ι := ClientOp)).1 with state }, U) := by
  have h1 : c'.ctl ≠ .at .dead := by rw [hc]; simp
  have h2 : c'.ctl ≠ .hung := by rw [hc]; simp
  simp only [Proxy.run, Proxy.step, h, hn, h1, h2, if_false, Proxy.clientBranch, he]
  exact ⟨_, rfl⟩

/-- A step on the connection to the server after which the proxy goes on. -/
theorem server_step {c : FullStream Nat Server} {s s' : FullStream Nat Client} {a : IoAct}
    {T : List (FullItem ClientError ClientEvent ClientOp)} (h : s.step (clientMachine Toy.lib) a.toStream = some (s', T))
    {i : StreamCtl} (hc : s'.ctl = .at i) (hi : i ≠ .dead) (hn : nextResult T = none) :
    ∃ U, (Proxy.conversation c s).run Toy.lib gs [.server a] = some (.conversation c s', U) := by
  have h1 : s'.ctl ≠ .at .dead := by rw [hc]; simpa using hi
  have h2 : s'.ctl ≠ .hung := by rw [hc]; simp
  simp only [Proxy.run, Proxy.step, h, hn, h1, h2, if_false]
  exact ⟨_, rfl⟩

theorem server_event {c : FullStream Nat Server} {s s' : FullStream Nat Client} {a : IoAct}
    {T : List (FullItem ClientError ClientEvent ClientOp)} (h : s.step (clientMachine Toy.lib) a.toStream = some (s', T))
    (hc : s'.ctl = .at .idle) {r : Except (StreamError ClientError) ClientEvent} (hn : nextResult T = some r)
    {state : Server} {calls : List ServerOp}
    (he : handleServerEvent Toy.lib r (c.dropFuture (ε := ServerError) (ev := ServerEvent) (ι := ServerOp)).1.state =
      .ok (state, calls, .continue)) :
    ∃ U, (Proxy.conversation c s).run Toy.lib gs [.server a] =
      some (.conversation { (c.dropFuture (ε := ServerError) (ev := ServerEvent) (ι := ServerOp)).1 with state } s', U) := by
  have h1 : s'.ctl ≠ .at .dead := by rw [hc]; simp
  have h2 : s'.ctl ≠ .hung := by rw [hc]; simp
  simp only [Proxy.run, Proxy.step, h, hn, h1, h2, if_false, Proxy.serverBranch, he]
  exact ⟨_, rfl⟩

/-- A call of `next` that returns an event. -/
theorem next_event {σ ε ev ι : Type} {M : Machine σ ε ev ι} {w : Bytes} {s s' : σ} {e : ev} (h : M.next s = .ok (s', .ok e)) :
    ∃ T, FullStream.step (K := Nat) M ⟨none, [], w, s, .at .idle⟩ .callNext = some (⟨none, [], w, s', .at .idle⟩, T) ∧
      nextResult T = some (.ok e) := by
  simp only [FullStream.step, FullStream.advance, FullStream.provideInput, FullStream.deliver, List.isEmpty_nil, if_true, h]
  exact ⟨_, rfl, rfl⟩

/-- A call of `next` that gives output, which is not written. -/
theorem next_output {σ ε ev ι : Type} {M : Machine σ ε ev ι} {w b : Bytes} {s s' : σ} (h : M.next s = .ok (s', .error (.io (.output b))))
    (hb : b ≠ []) :
    ∃ T, FullStream.step (K := Nat) M ⟨none, [], w, s, .at .idle⟩ .callNext = some (⟨none, [], w ++ b, s', .at .racing⟩, T) ∧
      nextResult T = none := by
  simp only [FullStream.step, FullStream.advance, FullStream.provideInput, FullStream.deliver, List.isEmpty_nil, if_true, h]
  have hw : (w ++ b).isEmpty = false := by simp [hb]
  simp only [FullStream.handleOutput, FullStream.outputBytes, hw, Bool.false_eq_true, if_false]
  exact ⟨_, rfl, rfl⟩

/-! ## Commands -/

/-- The proxy's connection to the client at rest. -/
def restClient : FullStream Nat Server := ⟨none, [], [], toClient gs { queuedMessages := [], currentMessage := none }, .at .idle⟩

/-- The proxy's connection to the server at rest. -/
def restServer : FullStream Nat Client := ⟨none, [], [], toServer g { queuedMessages := [], currentMessage := none }, .at .idle⟩

theorem sent_next (g : HandleGenerator) (h h' : RawHandle) :
    (toServer g { queuedMessages := [⟨h', cmd⟩], currentMessage := some (sent h) }).next Toy.lib =
      .ok (toServer g { queuedMessages := [⟨h', cmd⟩], currentMessage := none }, .ok (.commandSent h cmd)) := by
  rw [Client.next_eq]
  rfl

theorem queued_next (g : HandleGenerator) (h : RawHandle) :
    (toServer g { queuedMessages := [⟨h, cmd⟩], currentMessage := none }).next Toy.lib =
      .ok (toServer g { queuedMessages := [], currentMessage := some (sent h) }, .error (.io (.output (ln "A Cz")))) := by
  rw [Client.next_eq]
  rfl

set_option synthInstance.maxSize 4096 in
theorem command_round (w : Bytes) (g : HandleGenerator) (h : RawHandle) : ∃ g' h' T,
    (Proxy.conversation restClient ⟨none, [], w, toServer g { queuedMessages := [], currentMessage := some (sent h) }, .at .racing⟩).run
      Toy.lib gs [.client .poll, .client (.read (ln "A Cz")), .server .poll, .server .poll] =
    some (.conversation restClient ⟨none, [], w ++ ln "A Cz",
      toServer g' { queuedMessages := [], currentMessage := some (sent h') }, .at .racing⟩, T) := by
  obtain ⟨T1, h1, n1⟩ := of_stream (x := restClient.step (serverMachine Toy.lib) .callNext) (r := []) (w := [])
    (s := restClient.state) (ctl := .at .reading) (n := none) (by decide +kernel)
  obtain ⟨T2, h2, n2⟩ := of_stream
    (x := FullStream.step (K := Nat) (serverMachine Toy.lib) ⟨none, [], [], restClient.state, .at .reading⟩ (.read (ln "A Cz")))
    (r := []) (w := []) (s := restClient.state) (ctl := .at .idle) (n := some (.ok (.commandReceived cmd))) (by decide +kernel)
  obtain ⟨T3, h3, n3⟩ := next_event (M := clientMachine Toy.lib) (w := w) (sent_next g.generate.1 h g.generate.2)
  obtain ⟨T4, h4, n4⟩ := next_output (M := clientMachine Toy.lib) (w := w) (queued_next g.generate.1 g.generate.2) (by decide)
  obtain ⟨U1, r1⟩ := client_step (a := .poll) (s := ⟨none, [], w, toServer g { queuedMessages := [], currentMessage := some (sent h) }, .at .racing⟩)
    h1 rfl (by simp) n1
  obtain ⟨U2, r2⟩ := client_event (a := .read (ln "A Cz"))
    (s := ⟨none, [], w, toServer g { queuedMessages := [], currentMessage := some (sent h) }, .at .racing⟩) h2 rfl n2 rfl
  obtain ⟨U3, r3⟩ := server_event (c := restClient) (a := .poll) h3 rfl n3 rfl
  obtain ⟨U4, r4⟩ := server_step (c := restClient) (a := .poll) h4 rfl (by simp) n4
  exact ⟨_, _, _, run_append r1 (run_append r2 (run_append r3 r4))⟩

set_option synthInstance.maxSize 4096 in
theorem commands_run (n : Nat) : ∃ g' h w T, run (commands n) =
    some (.conversation restClient ⟨none, [], w, toServer g' { queuedMessages := [], currentMessage := some (sent h) }, .at .racing⟩, T) ∧
    w.length = 6 * (n + 1) := by
  induction n with
  | zero =>
    obtain ⟨T, h⟩ := of_proxy (x := run (commands 0)) (r := []) (w := []) (s := restClient.state) (ctl := .at .idle) (r' := [])
      (w' := ln "A Cz") (c := toServer g.generate.1 { queuedMessages := [], currentMessage := some (sent g.generate.2) })
      (ctl' := .at .racing) (by decide +kernel)
    exact ⟨_, _, _, T, h, by decide⟩
  | succ n ih =>
    obtain ⟨g', h, w, T, h1, h2⟩ := ih
    obtain ⟨g'', h', T', h3⟩ := command_round w g' h
    refine ⟨g'', h', w ++ ln "A Cz", T ++ T', run_append h1 h3, ?_⟩
    rw [List.length_append, h2, show (ln "A Cz").length = 6 by decide]
    omega

/-! ## Responses -/

theorem sent_response_next (g : HandleGenerator) (h h' : RawHandle) :
    (toClient g { queuedMessages := [.response (some h') (.data data)], currentMessage := some (.response (some h) (.data data)) }).next Toy.lib =
      .ok (toClient g { queuedMessages := [.response (some h') (.data data)], currentMessage := none }, .ok (.responseSent h (.data data))) := by
  rw [Server.next_eq]
  rfl

theorem queued_response_next (g : HandleGenerator) (h : RawHandle) :
    (toClient g { queuedMessages := [.response (some h) (.data data)], currentMessage := none }).next Toy.lib =
      .ok (toClient g { queuedMessages := [], currentMessage := some (.response (some h) (.data data)) }, .error (.io (.output (ln "*d")))) := by
  rw [Server.next_eq]
  rfl

set_option synthInstance.maxSize 4096 in
theorem response_round (w : Bytes) (g' : HandleGenerator) (h : RawHandle) : ∃ g'' h' T,
    (Proxy.conversation ⟨none, [], w, toClient g' { queuedMessages := [], currentMessage := some (.response (some h) (.data data)) }, .at .racing⟩
      restServer).run Toy.lib gs [.server .poll, .server (.read (ln "*d")), .client .poll, .client .poll] =
    some (.conversation ⟨none, [], w ++ ln "*d",
      toClient g'' { queuedMessages := [], currentMessage := some (.response (some h') (.data data)) }, .at .racing⟩ restServer, T) := by
  obtain ⟨T1, h1, n1⟩ := of_stream (x := restServer.step (clientMachine Toy.lib) .callNext) (r := []) (w := [])
    (s := restServer.state) (ctl := .at .reading) (n := none) (by decide +kernel)
  obtain ⟨T2, h2, n2⟩ := of_stream
    (x := FullStream.step (K := Nat) (clientMachine Toy.lib) ⟨none, [], [], restServer.state, .at .reading⟩ (.read (ln "*d")))
    (r := []) (w := []) (s := restServer.state) (ctl := .at .idle) (n := some (.ok (.dataReceived data))) (by decide +kernel)
  obtain ⟨T3, h3, n3⟩ := next_event (M := serverMachine Toy.lib) (w := w) (sent_response_next g'.generate.1 h g'.generate.2)
  obtain ⟨T4, h4, n4⟩ := next_output (M := serverMachine Toy.lib) (w := w) (queued_response_next g'.generate.1 g'.generate.2) (by decide)
  obtain ⟨U1, r1⟩ := server_step (a := .poll)
    (c := ⟨none, [], w, toClient g' { queuedMessages := [], currentMessage := some (.response (some h) (.data data)) }, .at .racing⟩)
    h1 rfl (by simp) n1
  obtain ⟨U2, r2⟩ := server_event (a := .read (ln "*d"))
    (c := ⟨none, [], w, toClient g' { queuedMessages := [], currentMessage := some (.response (some h) (.data data)) }, .at .racing⟩)
    h2 rfl n2 rfl
  obtain ⟨U3, r3⟩ := client_event (s := restServer) (a := .poll) h3 rfl n3 rfl
  obtain ⟨U4, r4⟩ := client_step (s := restServer) (a := .poll) h4 rfl (by simp) n4
  exact ⟨_, _, _, run_append r1 (run_append r2 (run_append r3 r4))⟩

set_option synthInstance.maxSize 4096 in
theorem responses_run (n : Nat) : ∃ g' h w T, run (responses n) =
    some (.conversation ⟨none, [], w, toClient g' { queuedMessages := [], currentMessage := some (.response (some h) (.data data)) },
      .at .racing⟩ restServer, T) ∧
    w.length = 4 * (n + 1) := by
  induction n with
  | zero =>
    obtain ⟨T, h⟩ := of_proxy (x := run (responses 0)) (r := []) (w := ln "*d")
      (s := toClient gs.generate.1 { queuedMessages := [], currentMessage := some (.response (some gs.generate.2) (.data data)) })
      (ctl := .at .racing) (r' := []) (w' := []) (c := restServer.state) (ctl' := .at .idle) (by decide +kernel)
    exact ⟨_, _, _, T, h, by decide⟩
  | succ n ih =>
    obtain ⟨g', h, w, T, h1, h2⟩ := ih
    obtain ⟨g'', h', T', h3⟩ := response_round w g' h
    refine ⟨g'', h', w ++ ln "*d", T ++ T', run_append h1 h3, ?_⟩
    rw [List.length_append, h2, show (ln "*d").length = 4 by decide]
    omega

end ImapFlow.ProxyHeldSample

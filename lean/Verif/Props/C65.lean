import Verif.Proofs.RelayDelivered
import Verif.Props.C64
import Verif.Spec.RelayRestSamples

/-!
# C65: through the proxy, everything comes to rest, and then everything was delivered

C63 with the proxy (`/repo/proxy/src/proxy.rs:220-376`) between the client and the server.  `Relay.Moves` is a step of the
system while both users do nothing but call `next` again and again: a call of `next`, a poll of one of the two `next`s of
the proxy, the arrival of bytes that are on the way, or the acceptance of bytes by a socket, in any portions and in any
order.  No fairness is assumed: the claims hold for every order of these steps.  Rustls may refuse to take more input (C49),
which ends a stream.
-/

namespace ImapFlow

variable {K : Type} {paired : K → K → Prop} {L : Lib} {tc tpc tps ts : Option (Tls K)} {gc gpc gps gs : HandleGenerator}
  {oc : ClientOptions} {op os : ServerOptions} {gr : Greeting} {r r' : Relay K} {R I : List RelayItem} {as : List RelayAct}
  {c : Client} {s : Server} {A : List CItem} {S : List SItem}

/-- As long as not everyone waits for input that is not on the way, the system can move. -/
theorem C65_progress (hL : L.Lawful) (hP : L.Proxyable) (hopt : proxyServerOptions L = .ok op) (hO : ServerOptions.Built L os)
    (hc : Handshaken paired tc tpc) (hv : Handshaken paired tps ts)
    (h : (Relay.new tc tpc tps ts gc oc gpc gs os gr).run L gps as = some (r, R)) (hr : RelayAccepted R)
    (hw : ¬ r.AtRest) : ∃ r' I, r.Moves L gps r' I :=
  Relay.possible hL hP hopt hO hc hv h hr hw

/-- Whatever the users did before and whatever client and server sent, the system does not move forever: infinitely many
steps are only possible after rustls refused to take input. -/
theorem C65_rest (hL : L.Lawful) (hP : L.Proxyable) (hopt : proxyServerOptions L = .ok op) (hO : ServerOptions.Built L os)
    (hmax : 0 < os.maxCommandSize) (hc : Handshaken paired tc tpc) (hv : Handshaken paired tps ts)
    (h : (Relay.new tc tpc tps ts gc oc gpc gs os gr).run L gps as = some (r, R)) (hr : RelayAccepted R)
    {f : Nat → Relay K} {g : Nat → List RelayItem} (h0 : f 0 = r) (hm : ∀ i, (f i).Moves L gps (f (i + 1)) (g i)) :
    ∃ i, ¬ RelayAccepted (g i) :=
  Classical.byContradiction fun hn => Relay.rest hL hP hopt hO hmax hc hv h hr h0 hm fun i =>
    Classical.byContradiction fun hx => hn ⟨i, hx⟩

/-- Hence a state in which everyone waits for input that is not on the way can always be reached, unless rustls refuses to
take input. -/
theorem C65_settles (hL : L.Lawful) (hP : L.Proxyable) (hopt : proxyServerOptions L = .ok op) (hO : ServerOptions.Built L os)
    (hmax : 0 < os.maxCommandSize) (hc : Handshaken paired tc tpc) (hv : Handshaken paired tps ts)
    (h : (Relay.new tc tpc tps ts gc oc gpc gs os gr).run L gps as = some (r, R)) (hr : RelayAccepted R) :
    ∃ r' I, r.Unattended L gps r' I ∧ (r'.AtRest ∨ ¬ RelayAccepted I) := by
  refine Classical.byContradiction fun hn => ?_
  have hn' : ∀ r' I, r.Unattended L gps r' I → ¬ r'.AtRest ∧ RelayAccepted I :=
    fun r' I hu => ⟨fun hx => hn ⟨r', I, hu, .inl hx⟩, Classical.byContradiction fun hx => hn ⟨r', I, hu, .inr hx⟩⟩
  have step : ∀ p : { p : Relay K × List RelayItem // r.Unattended L gps p.1 p.2 },
      ∃ q : { p : Relay K × List RelayItem // r.Unattended L gps p.1 p.2 }, ∃ J, p.1.1.Moves L gps q.1.1 J ∧ q.1.2 = p.1.2 ++ J := by
    rintro ⟨⟨r1, I1⟩, hu⟩
    obtain ⟨as', h1⟩ := hu.run h
    obtain ⟨w1, w2⟩ := hn' _ _ hu
    obtain ⟨r2, I2, hm⟩ := C65_progress hL hP hopt hO hc hv h1 (hr.append w2) w1
    exact ⟨⟨(r2, I1 ++ I2), hu.snoc hm⟩, I2, hm, rfl⟩
  let F : Nat → { p : Relay K × List RelayItem // r.Unattended L gps p.1 p.2 } :=
    fun i => Nat.rec ⟨(r, []), .nil⟩ (fun _ p => Classical.choose (step p)) i
  have hF : ∀ i, ∃ J, (F i).1.1.Moves L gps (F (i + 1)).1.1 J ∧ (F (i + 1)).1.2 = (F i).1.2 ++ J :=
    fun i => Classical.choose_spec (step (F i))
  obtain ⟨i, hi⟩ := C65_rest hL hP hopt hO hmax hc hv h hr (f := fun i => (F i).1.1) (g := fun i => Classical.choose (hF i)) rfl
    (fun i => (Classical.choose_spec (hF i)).1)
  have e := (Classical.choose_spec (hF i)).2
  obtain ⟨-, w2⟩ := hn' _ _ (F (i + 1)).2
  rw [e] at w2
  exact hi w2.right

/-- Whatever the dialogue, the conversation is over only if a socket of the proxy was closed or failed. -/
theorem C65_open (hL : L.Lawful) (hP : L.Proxyable) (hopt : proxyServerOptions L = .ok op) (hO : ServerOptions.Built L os)
    (hmax : 0 < os.maxCommandSize) (hc : Handshaken paired tc tpc) (hv : Handshaken paired tps ts)
    (h : (Relay.new tc tpc tps ts gc oc gpc gs os gr).run L gps as = some (r, R)) (hr : RelayAccepted R)
    (hA : (Client.new gc oc).trace L (clientOps (streamPart (relayClient R))) = .ok (c, A))
    (hS : (Server.new gs os gr).trace L (serverOps (streamPart (relayServer R))) = .ok (s, S))
    (hU : RelayUsers L oc .default op os gr A S) (ho : r.proxy = .over) :
    (∃ i ∈ [.read [], .wrote [], .failed], .proxy (.client i) ∈ R) ∨
    ∃ i ∈ [.read [], .wrote [], .failed], .proxy (.server i) ∈ R :=
  Relay.open_end hL hP hopt hO hmax hc hv h hr hA hS hU ho

/-- At rest, the proxy is in the conversation, everything that the user of the client said was returned to the user of the
server, all answers of the user of the server were returned to the user of the client, and both agree whose turn it is.
`A'` and `S'` are what the client and the server did on their own since. -/
theorem C65_delivered (hL : L.Lawful) (hP : L.Proxyable) (hopt : proxyServerOptions L = .ok op) (hO : ServerOptions.Built L os)
    (hmax : 0 < os.maxCommandSize) (hc : Handshaken paired tc tpc) (hv : Handshaken paired tps ts)
    (h : (Relay.new tc tpc tps ts gc oc gpc gs os gr).run L gps as = some (r, R)) (hr : RelayAccepted R)
    (hA : (Client.new gc oc).trace L (clientOps (streamPart (relayClient R))) = .ok (c, A))
    (hS : (Server.new gs os gr).trace L (serverOps (streamPart (relayServer R))) = .ok (s, S))
    (hU : RelayUsers L oc .default op os gr A S) (ho : RelayOpen R) (hu : r.Unattended L gps r' I) (hr' : RelayAccepted I)
    (hw : r'.AtRest) :
    r'.Waiting ∧ ∃ c' A' s' S',
      (Client.new gc oc).trace L (clientOps (streamPart (relayClient (R ++ I)))) = .ok (c', A ++ A') ∧
      (Server.new gs os gr).trace L (serverOps (streamPart (relayServer (R ++ I)))) = .ok (s', S ++ S') ∧
      ((∀ i ∈ A', i.Automatic) ∧ ∀ i ∈ S', i.Automatic) ∧
      (events (streamPart (relayServer (R ++ I)))).filterMap ServerEvent.heard? = (ClientView.of (A ++ A')).said ∧
      (events (streamPart (relayClient (R ++ I)))).filterMap ClientEvent.answer? = serverAnswers (S ++ S') ∧
      Turn (ClientView.of (A ++ A')) (serverPhase (S ++ S')) (serverDialogue (S ++ S')) := by
  obtain ⟨as', h1⟩ := hu.run h
  obtain ⟨c', A', s', S', hA', hS', g1, g2, hU'⟩ := hu.traces hL hO hA hS hU
  have hacc := hr.append hr'
  have hwait := Relay.rest_waiting hL hP hopt hO hmax hc hv h1 hacc hA' hS' hU' (hu.attended.open ho) hw
  exact ⟨hwait, c', A', s', S', hA', hS', ⟨g1, g2⟩, C64_turn hL hP hopt hO hmax hc hv h1 hacc hA' hS' hU' hwait⟩

/-- If all commands are regular, then at rest each of them was returned to the user of the server, in order. -/
theorem C65_commands (hL : L.Lawful) (hP : L.Proxyable) (hopt : proxyServerOptions L = .ok op) (hO : ServerOptions.Built L os)
    (hmax : 0 < os.maxCommandSize) (hc : Handshaken paired tc tpc) (hv : Handshaken paired tps ts)
    (h : (Relay.new tc tpc tps ts gc oc gpc gs os gr).run L gps as = some (r, R)) (hr : RelayAccepted R)
    (hA : (Client.new gc oc).trace L (clientOps (streamPart (relayClient R))) = .ok (c, A))
    (hS : (Server.new gs os gr).trace L (serverOps (streamPart (relayServer R))) = .ok (s, S))
    (hU : RelayUsers L oc .default op os gr A S) (ho : RelayOpen R) (hreg : ∀ c ∈ relayedCommands R, c.isRegular = true)
    (hu : r.Unattended L gps r' I) (hr' : RelayAccepted I) (hw : r'.AtRest) :
    (events (streamPart (relayServer (R ++ I)))).filterMap ServerEvent.received? = relayedCommands R := by
  obtain ⟨-, c', A', s', S', hA', hS', ⟨g1, g2⟩, k1, -, k3⟩ :=
    C65_delivered hL hP hopt hO hmax hc hv h hr hA hS hU ho hu hr' hw
  obtain ⟨-, T1, T2, d, u, hb, rfl, -⟩ := Relay.bound hL hP hopt hO hmax hc hv h hr hA hS hU
  have hen := hb.clientRecord.enqueued
  have henq : (ClientView.of (clientItems T1 ++ A')).enqueued.map Prod.snd = relayedCommands R := by
    rw [(ClientView.of_fields _).2.2.1, clientEnqueued_automatic g1]
    exact hen
  have key : (events (streamPart (relayServer (R ++ I)))).filterMap ServerEvent.received? =
      ((events (streamPart (relayServer (R ++ I)))).filterMap ServerEvent.heard?).filterMap ServerEvent.received? := by
    rw [List.filterMap_filterMap]
    refine filterMap_congr' fun e _ => ?_
    cases e <;> rfl
  rw [key, k1, ← henq]
  exact said_received k3 (by rw [henq]; exact hreg)

/-- With TLS on both connections: two commands were enqueued and nothing was sent yet.  The system moves by itself to rest,
and there both commands were delivered. -/
example : ∃ r R r' I c A s S, RelaySample.start.run Toy.lib ClientSample.g RelayDialogueSample.asked = some (r, R) ∧
    (Handshaken (· = ·) (some (RelaySample.tls 5 0)) (some (RelaySample.tls 0 5)) ∧
    Handshaken (· = ·) (some (RelaySample.tls 7 3)) (some (RelaySample.tls 3 7))) ∧ RelayAccepted R ∧
    RelayDialogueSample.clientTrace R = .ok (c, A) ∧ RelayDialogueSample.serverTrace R = .ok (s, S) ∧
    RelayUsers Toy.lib .default .default RelaySample.proxyOptions ServerSample.options RelaySample.greeting A S ∧
    RelayOpen R ∧ ¬ r.AtRest ∧ r.Unattended Toy.lib ClientSample.g r' I ∧ RelayAccepted I ∧ r'.AtRest ∧
    (events (streamPart (relayServer (R ++ I)))).filterMap ServerEvent.received? = [NetSample.cmdA, NetSample.cmdC] := by
  obtain ⟨r, R, r', I, h1, h2, h3, h4, h5, h6, h7, h8⟩ := RelayDialogueSample.comes_to_rest
  obtain ⟨a1, c, A, s, S, a2, a3, a4⟩ := h2.hypotheses
  refine ⟨r, R, r', I, c, A, s, S, h1, ⟨RelaySample.handshaken 5 0, RelaySample.handshaken 7 3⟩, a1, a2, a3, a4, h3, h4, h6, h7, h8, ?_⟩
  rw [C65_commands Toy.lawful Toy.proxyable RelaySample.proxyOptions_eq StreamNetSample.built (by decide)
    (RelaySample.handshaken 5 0) (RelaySample.handshaken 7 3) h1 a1 a2 a3 a4 h3
    (by rw [h5]; intro c hc; simp only [List.mem_cons, List.not_mem_nil, or_false] at hc; rcases hc with rfl | rfl <;> rfl)
    h6 h7 h8, h5]

end ImapFlow

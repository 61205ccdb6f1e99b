import Verif.Proofs.Sockets
import Verif.Proofs.FullSockets
import Verif.Props.C63
import Verif.Props.C65
import Verif.Spec.SocketSamples

/-!
# C79: no deadlock with full sockets

"We read and write the stream simultaneously because otherwise a deadlock between client and server might occur if both
sides would only read or only write", `/repo/src/stream.rs:146-149`.  C63 and C65 let any number of bytes be on the way,
where this would not make a difference.  Here each direction has a capacity (`Spec/Sockets.lean`), of at least one byte, and
a write to a full socket waits.

With `next`, nothing gets stuck: if no step is possible within the capacities, then everyone waits for input and everything
was delivered.  Two users in `flush`, which only writes, can wait for each other forever (`C79_flush`); one of them is enough
to go on, and so is a proxy between them, which never calls `flush`.
-/

namespace ImapFlow

variable {K : Type} {paired : K → K → Prop} {L : Lib} {tc tpc tps ts : Option (Tls K)} {gc gpc gps gs : HandleGenerator}
  {oc : ClientOptions} {op os : ServerOptions} {gr : Greeting}

/-! ## Two streams -/

section

variable {k : Capacities} {as : List StreamNetAct} {sn sn' : StreamNet K} {G G' : List StreamNetItem} {n : Net} {T : List NItem}

/-- The capacities are never exceeded. -/
theorem C79_capacity (h : (StreamNet.new tc ts gc oc gs os gr).runWithin L k as = some (sn, G))
    (hu : sn.UnattendedWithin L k sn' G') : sn'.toServer.length ≤ k.toServer ∧ sn'.toClient.length ≤ k.toClient :=
  hu.within (StreamNet.runWithin_within ⟨Nat.zero_le _, Nat.zero_le _⟩ h)

/-- Whatever the users did before, as long as they are not both in `flush`: if both call `next` from now on and the system
got to a state where nothing can move within the capacities, then both wait for input and nothing is on the way. -/
theorem C79_stuck (hL : L.Lawful) (hO : ServerOptions.Built L os) (hh : Handshaken paired tc ts)
    (h : (StreamNet.new tc ts gc oc gs os gr).run L as = some (sn, G)) (hr : .client .refused ∉ G ∧ .server .refused ∉ G)
    (hk : 0 < k.toServer ∧ 0 < k.toClient) (hf : ¬ (sn.client.ctl = .at .flushing ∧ sn.server.ctl = .at .flushing))
    (hu : sn.UnattendedWithin L k sn' G') (hr' : .client .refused ∉ G' ∧ .server .refused ∉ G')
    (hn : ∀ sn'' G'', ¬ sn'.MovesWithin L k sn'' G'') : sn'.Waiting := by
  refine Classical.byContradiction fun hw => ?_
  obtain ⟨as', h1, -⟩ := hu.unattended.run h
  obtain ⟨f1, f2⟩ := hu.unattended.flushing
  obtain ⟨n, T, -, h2, -⟩ := StreamNet.Tracks.run (ops := []) hL hO rfl (StreamNet.new_tracks hh gc gs oc os gr) h1
    ⟨by simp [hr.1, hr'.1], by simp [hr.2, hr'.2]⟩
  obtain ⟨s2, G2, hm⟩ := h2.possible_within (L := L)
    (StreamNet.run_pending h1 ⟨by simp [FullStream.Pending, StreamNet.new], by simp [FullStream.Pending, StreamNet.new]⟩) hk
    (fun hx => hf ⟨Classical.byContradiction fun hc => f1 hc hx.1, Classical.byContradiction fun hc => f2 hc hx.2⟩) hw
  exact hn _ _ hm

/-- The system does not move forever. -/
theorem C79_ends (hL : L.Lawful) (hO : ServerOptions.Built L os) (hmax : 0 < os.maxCommandSize)
    (hh : Handshaken paired tc ts) (h : (StreamNet.new tc ts gc oc gs os gr).run L as = some (sn, G))
    (hr : .client .refused ∉ G ∧ .server .refused ∉ G) {f : Nat → StreamNet K} {g : Nat → List StreamNetItem}
    (h0 : f 0 = sn) (hm : ∀ i, (f i).MovesWithin L k (f (i + 1)) (g i)) :
    ∃ i, .client .refused ∈ g i ∨ .server .refused ∈ g i :=
  C63_rest hL hO hmax hh h hr h0 fun i => (hm i).moves

/-- If all commands are regular and nothing can move within the capacities, then each command was returned to the user of
the server, in order, and reported as sent to the user of the client. -/
theorem C79_commands (hL : L.Lawful) (hO : ServerOptions.Built L os) (hmax : 0 < os.maxCommandSize)
    (hh : Handshaken paired tc ts) (h : (StreamNet.new tc ts gc oc gs os gr).run L as = some (sn, G))
    (hr : .client .refused ∉ G ∧ .server .refused ∉ G)
    (hT : (Net.new gc oc gs os gr).run L (G.flatMap StreamNetItem.calls) = .ok (n, T))
    (hC : ClearServer L oc os gr (serverItems T)) (hF : FairClient L os (clientItems T))
    (hP : OrderlyServer (serverItems T)) (hreg : ∀ c ∈ (atClient G).filterMap StreamItem.enqueued?, c.isRegular = true)
    (hk : 0 < k.toServer ∧ 0 < k.toClient) (hf : ¬ (sn.client.ctl = .at .flushing ∧ sn.server.ctl = .at .flushing))
    (hu : sn.UnattendedWithin L k sn' G') (hr' : .client .refused ∉ G' ∧ .server .refused ∉ G')
    (hn : ∀ sn'' G'', ¬ sn'.MovesWithin L k sn'' G'') :
    (events (atServer (G ++ G'))).filterMap ServerEvent.received? = (atClient G).filterMap StreamItem.enqueued? ∧
    (events (atClient (G ++ G'))).filterMap ClientEvent.sentCommand? = (atClient G).filterMap StreamItem.enqueued? :=
  C63_commands hL hO hmax hh h hr hT hC hF hP hreg hu.unattended hr' (C79_stuck hL hO hh h hr hk hf hu hr' hn)

/-- The same for all dialogues. -/
theorem C79_delivered (hL : L.Lawful) (hO : ServerOptions.Built L os) (hmax : 0 < os.maxCommandSize)
    (hh : Handshaken paired tc ts) (h : (StreamNet.new tc ts gc oc gs os gr).run L as = some (sn, G))
    (hr : .client .refused ∉ G ∧ .server .refused ∉ G)
    (hT : (Net.new gc oc gs os gr).run L (G.flatMap StreamNetItem.calls) = .ok (n, T))
    (hC : ClearServer L oc os gr (serverItems T)) (hF : FairClient L os (clientItems T))
    (hP : OrderlyServer (serverItems T))
    (hk : 0 < k.toServer ∧ 0 < k.toClient) (hf : ¬ (sn.client.ctl = .at .flushing ∧ sn.server.ctl = .at .flushing))
    (hu : sn.UnattendedWithin L k sn' G') (hr' : .client .refused ∉ G' ∧ .server .refused ∉ G')
    (hn : ∀ sn'' G'', ¬ sn'.MovesWithin L k sn'' G'') :
    ∃ n' U, n.run L (G'.flatMap StreamNetItem.calls) = .ok (n', U) ∧
      (events (atServer (G ++ G'))).filterMap ServerEvent.heard? = (ClientView.of (clientItems (T ++ U))).said ∧
      (events (atClient (G ++ G'))).filterMap ClientEvent.answer? = serverAnswers (serverItems (T ++ U)) ∧
      Turn (ClientView.of (clientItems (T ++ U))) (serverPhase (serverItems (T ++ U)))
        (serverDialogue (serverItems (T ++ U))) :=
  C63_delivered hL hO hmax hh h hr hT hC hF hP hu.unattended hr' (C79_stuck hL hO hh h hr hk hf hu hr' hn)

end

/-- Not if both users are in `flush`, whatever the capacities are: there are runs after which both sockets are full, both
users wait for room, and neither of them reads, although there is input for both. -/
theorem C79_flush (k : Capacities) (hk : 0 < k.toServer ∧ 0 < k.toClient) :
    ∃ (as : List StreamNetAct) (sn : StreamNet Nat) (G : List StreamNetItem),
    StreamNetSample.plainStart.runWithin Toy.lib k as = some (sn, G) ∧
    (.client .refused ∉ G ∧ .server .refused ∉ G) ∧ ¬ sn.Waiting ∧ (sn.toServer ≠ [] ∧ sn.toClient ≠ []) ∧
    ∀ sn' G', ¬ sn.MovesWithin Toy.lib k sn' G' := by
  obtain ⟨n, G, h1, h2, ⟨h3, h4⟩, h5, h6⟩ := SocketSample.flush_run hk
  refine ⟨_, n, G, h1, h2, fun hw => ?_, ⟨?_, ?_⟩, fun _ _ => StreamNet.stuck_flush h3 h4 ⟨by omega, by omega⟩⟩
  · rw [hw.2.2.1] at h3; cases h3
  · intro hx; rw [hx] at h5; simp only [List.length_nil] at h5; omega
  · intro hx; rw [hx] at h6; simp only [List.length_nil] at h6; omega

/-- With TLS: two commands were enqueued and nothing was sent yet.  With room for three bytes to the server and two bytes to
the client the system gets to a state where nothing can move, and there both commands were delivered. -/
example : ∃ n G n' G', StreamNetSample.start.run Toy.lib StreamDialogueSample.asked = some (n, G) ∧ ¬ n.Waiting ∧
    n.UnattendedWithin Toy.lib SocketSample.few n' G' ∧ (∀ n'' G'', ¬ n'.MovesWithin Toy.lib SocketSample.few n'' G'') ∧
    (events (atServer (G ++ G'))).filterMap ServerEvent.received? = [NetSample.cmdA, NetSample.cmdC] := by
  obtain ⟨n, G, n', G', h, hs, he, hf, k1, hu, k2, k3⟩ := SocketSample.few_rest
  obtain ⟨h1, m, T, h2, h3, h4, h5, h6⟩ := hs.hypotheses
  refine ⟨n, G, n', G', h, k1, hu, fun _ _ => k2.stuck, ?_⟩
  rw [(C79_commands Toy.lawful StreamNetSample.built (by decide) StreamNetSample.handshaken h h1 h2 h4 h5 h6
    (by rw [he]; intro c hc; simp only [List.mem_cons, List.not_mem_nil, or_false] at hc; rcases hc with rfl | rfl <;> rfl)
    (by decide) hf hu k3 fun _ _ => k2.stuck).1, he]

/-! ## With the proxy between them -/

section

variable {k : RelayCapacities} {r r' : Relay K} {R I : List RelayItem} {as : List RelayAct}
  {c : Client} {s : Server} {A : List CItem} {S : List SItem}

/-- Whatever the users did before, even if both are in `flush`: if nothing can move within the capacities, then everyone
waits and nothing is on the way. -/
theorem C79_proxy_stuck (hL : L.Lawful) (hP : L.Proxyable) (hopt : proxyServerOptions L = .ok op) (hO : ServerOptions.Built L os)
    (hmax : 0 < os.maxCommandSize) (hc : Handshaken paired tc tpc) (hv : Handshaken paired tps ts)
    (h : (Relay.new tc tpc tps ts gc oc gpc gs os gr).run L gps as = some (r, R)) (hr : RelayAccepted R)
    (hA : (Client.new gc oc).trace L (clientOps (streamPart (relayClient R))) = .ok (c, A))
    (hS : (Server.new gs os gr).trace L (serverOps (streamPart (relayServer R))) = .ok (s, S))
    (hU : RelayUsers L oc .default op os gr A S) (ho : RelayOpen R)
    (hk : (0 < k.clientToProxy ∧ 0 < k.proxyToClient) ∧ 0 < k.proxyToServer ∧ 0 < k.serverToProxy)
    (hu : r.UnattendedWithin L gps k r' I) (hr' : RelayAccepted I)
    (hn : ∀ r'' I', ¬ r'.MovesWithin L gps k r'' I') : r'.Waiting := by
  refine Classical.byContradiction fun hw => ?_
  have hx := hu.unattended
  obtain ⟨as', h1⟩ := hx.run h
  obtain ⟨c', A', s', S', hA', hS', g1, g2, hU'⟩ := hx.traces hL hO hA hS hU
  obtain ⟨r2, I2, hm⟩ := Relay.possible_within hL hP hopt hO hmax hc hv h1 (hr.append hr') hA' hS' hU' (hx.attended.open ho) hk hw
  exact hn _ _ hm

/-- The system does not move forever. -/
theorem C79_proxy_ends (hL : L.Lawful) (hP : L.Proxyable) (hopt : proxyServerOptions L = .ok op) (hO : ServerOptions.Built L os)
    (hmax : 0 < os.maxCommandSize) (hc : Handshaken paired tc tpc) (hv : Handshaken paired tps ts)
    (h : (Relay.new tc tpc tps ts gc oc gpc gs os gr).run L gps as = some (r, R)) (hr : RelayAccepted R)
    {f : Nat → Relay K} {g : Nat → List RelayItem} (h0 : f 0 = r) (hm : ∀ i, (f i).MovesWithin L gps k (f (i + 1)) (g i)) :
    ∃ i, ¬ RelayAccepted (g i) :=
  C65_rest hL hP hopt hO hmax hc hv h hr h0 fun i => (hm i).moves

/-- If nothing can move within the capacities, then everything was delivered; see `C65_delivered`. -/
theorem C79_proxy_delivered (hL : L.Lawful) (hP : L.Proxyable) (hopt : proxyServerOptions L = .ok op) (hO : ServerOptions.Built L os)
    (hmax : 0 < os.maxCommandSize) (hc : Handshaken paired tc tpc) (hv : Handshaken paired tps ts)
    (h : (Relay.new tc tpc tps ts gc oc gpc gs os gr).run L gps as = some (r, R)) (hr : RelayAccepted R)
    (hA : (Client.new gc oc).trace L (clientOps (streamPart (relayClient R))) = .ok (c, A))
    (hS : (Server.new gs os gr).trace L (serverOps (streamPart (relayServer R))) = .ok (s, S))
    (hU : RelayUsers L oc .default op os gr A S) (ho : RelayOpen R)
    (hk : (0 < k.clientToProxy ∧ 0 < k.proxyToClient) ∧ 0 < k.proxyToServer ∧ 0 < k.serverToProxy)
    (hu : r.UnattendedWithin L gps k r' I) (hr' : RelayAccepted I)
    (hn : ∀ r'' I', ¬ r'.MovesWithin L gps k r'' I') :
    ∃ c' A' s' S',
      (Client.new gc oc).trace L (clientOps (streamPart (relayClient (R ++ I)))) = .ok (c', A ++ A') ∧
      (Server.new gs os gr).trace L (serverOps (streamPart (relayServer (R ++ I)))) = .ok (s', S ++ S') ∧
      ((∀ i ∈ A', i.Automatic) ∧ ∀ i ∈ S', i.Automatic) ∧
      (events (streamPart (relayServer (R ++ I)))).filterMap ServerEvent.heard? = (ClientView.of (A ++ A')).said ∧
      (events (streamPart (relayClient (R ++ I)))).filterMap ClientEvent.answer? = serverAnswers (S ++ S') ∧
      Turn (ClientView.of (A ++ A')) (serverPhase (S ++ S')) (serverDialogue (S ++ S')) :=
  (C65_delivered hL hP hopt hO hmax hc hv h hr hA hS hU ho hu.unattended hr'
    (C79_proxy_stuck hL hP hopt hO hmax hc hv h hr hA hS hU ho hk hu hr' hn).atRest).2

/-- If all commands are regular and nothing can move within the capacities, then each of them was returned to the user of
the server, in order. -/
theorem C79_proxy_commands (hL : L.Lawful) (hP : L.Proxyable) (hopt : proxyServerOptions L = .ok op) (hO : ServerOptions.Built L os)
    (hmax : 0 < os.maxCommandSize) (hc : Handshaken paired tc tpc) (hv : Handshaken paired tps ts)
    (h : (Relay.new tc tpc tps ts gc oc gpc gs os gr).run L gps as = some (r, R)) (hr : RelayAccepted R)
    (hA : (Client.new gc oc).trace L (clientOps (streamPart (relayClient R))) = .ok (c, A))
    (hS : (Server.new gs os gr).trace L (serverOps (streamPart (relayServer R))) = .ok (s, S))
    (hU : RelayUsers L oc .default op os gr A S) (ho : RelayOpen R) (hreg : ∀ c ∈ relayedCommands R, c.isRegular = true)
    (hk : (0 < k.clientToProxy ∧ 0 < k.proxyToClient) ∧ 0 < k.proxyToServer ∧ 0 < k.serverToProxy)
    (hu : r.UnattendedWithin L gps k r' I) (hr' : RelayAccepted I)
    (hn : ∀ r'' I', ¬ r'.MovesWithin L gps k r'' I') :
    (events (streamPart (relayServer (R ++ I)))).filterMap ServerEvent.received? = relayedCommands R :=
  C65_commands hL hP hopt hO hmax hc hv h hr hA hS hU ho hreg hu.unattended hr'
    (C79_proxy_stuck hL hP hopt hO hmax hc hv h hr hA hS hU ho hk hu hr' hn).atRest

end

/-- With TLS on both connections and room for one to four bytes: two commands were enqueued and nothing was sent yet.  The
system gets to a state where nothing can move, and there both commands were delivered. -/
example : ∃ r R r' I, RelaySample.start.run Toy.lib ClientSample.g RelayDialogueSample.asked = some (r, R) ∧ ¬ r.Waiting ∧
    r.UnattendedWithin Toy.lib ClientSample.g SocketSample.fewer r' I ∧
    (∀ r'' I', ¬ r'.MovesWithin Toy.lib ClientSample.g SocketSample.fewer r'' I') ∧
    (events (streamPart (relayServer (R ++ I)))).filterMap ServerEvent.received? = [NetSample.cmdA, NetSample.cmdC] := by
  obtain ⟨r, R, r', I, h1, h2, h3, h4, h5, h6, h7, h8⟩ := SocketSample.fewer_rest
  obtain ⟨a1, c, A, s, S, a2, a3, a4⟩ := h2.hypotheses
  refine ⟨r, R, r', I, h1, h4, h6, fun _ _ => h8.stuck, ?_⟩
  rw [C79_proxy_commands Toy.lawful Toy.proxyable RelaySample.proxyOptions_eq StreamNetSample.built (by decide)
    (RelaySample.handshaken 5 0) (RelaySample.handshaken 7 3) h1 a1 a2 a3 a4 h3
    (by rw [h5]; intro c hc; simp only [List.mem_cons, List.not_mem_nil, or_false] at hc; rcases hc with rfl | rfl <;> rfl)
    (by decide) h6 h7 fun _ _ => h8.stuck, h5]

end ImapFlow

import Verif.Proofs.StreamNetWait
import Verif.Spec.StreamNetSamples

/-!
# C50: a client and a server on streams behave like a client and a server

The system of `Spec/StreamNet.lean` (two streams of `/repo/src/stream.rs` that are connected by a network, with or
without TLS) and the system of `Spec/Net.lean` (a client and a server whose input and output are passed directly).
The environment of the streams chooses the calls, their order, how much each read and write transfers, failures of
the sockets, and when futures are dropped.
-/

namespace ImapFlow

variable {K : Type} {paired : K → K → Prop} {L : Lib} {tc ts : Option (Tls K)} {gc gs : HandleGenerator}
  {oc : ClientOptions} {os : ServerOptions} {gr : Greeting} {as : List StreamNetAct} {sn : StreamNet K}
  {G : List StreamNetItem}

/-- Every run of the streams, unless rustls refuses plaintext (see `C50_accepted`), is a run of the plain system:
the calls that the streams make are possible there, the client and the server are in the same states, the same bytes
are on the way, and the calls have the same results. -/
theorem C50_refines (hL : L.Lawful) (hO : ServerOptions.Built L os) (hh : Handshaken paired tc ts)
    (h : (StreamNet.new tc ts gc oc gs os gr).run L as = some (sn, G))
    (hr : .client .refused ∉ G ∧ .server .refused ∉ G) :
    ∃ n T, (Net.new gc oc gs os gr).run L (G.flatMap StreamNetItem.calls) = .ok (n, T) ∧
      (sn.client.state = n.client ∧ sn.server.state = n.server) ∧
      (sn.client.readBuffer = [] ∧ sn.server.readBuffer = []) ∧
      (InFlight sn.server.tls (sn.toServer ++ sn.client.writeBuffer) n.toServer ∧
        InFlight sn.client.tls (sn.toClient ++ sn.server.writeBuffer) n.toClient) ∧
      ((clientItems T).filterMap CItem.result? = (atClient G).filterMap StreamItem.poll? ∧
        (serverItems T).filterMap SItem.result? = (atServer G).filterMap StreamItem.poll?) ∧
      ((clientEnqueued (clientItems T)).map Prod.snd = (atClient G).filterMap StreamItem.enqueued? ∧
        (serverItems T).filterMap SItem.requested? = (atServer G).filterMap StreamItem.response?) ∧
      (clientOutput (clientItems T) = streamOutput (atClient G) ∧ serverOutput (serverItems T) = streamOutput (atServer G)) := by
  obtain ⟨n, T, h1, h2, h3, h4, -⟩ := StreamNet.Tracks.run (ops := []) hL hO rfl (StreamNet.new_tracks hh gc gs oc os gr) h hr
  exact ⟨n, T, h1, ⟨h2.client.symm, h2.server.symm⟩, ⟨h2.clientSound.readBuffer, h2.serverSound.readBuffer⟩,
    ⟨h2.toServer.inFlight, h2.toClient.inFlight⟩, ⟨h3.results, h4.results⟩, ⟨h3.enqueued, h4.enqueued⟩,
    h3.output, h4.output⟩

/-- The users see the results of the calls of `next`, each event once and in order. -/
theorem C50_events (h : (StreamNet.new tc ts gc oc gs os gr).run L as = some (sn, G)) :
    events (atClient G) = (atClient G).filterMap (fun i => i.poll?.bind Except.toOption) ∧
    events (atServer G) = (atServer G).filterMap (fun i => i.poll?.bind Except.toOption) :=
  StreamNet.run_events h

/-- A peer that is also a stream of this crate causes neither a panic, nor an error of TLS, nor a `next` that hangs. -/
theorem C50_alive (hL : L.Lawful) (hO : ServerOptions.Built L os) (hh : Handshaken paired tc ts)
    (h : (StreamNet.new tc ts gc oc gs os gr).run L as = some (sn, G))
    (hr : .client .refused ∉ G ∧ .server .refused ∉ G) : Healthy G := by
  obtain ⟨-, -, -, -, -, -, h5⟩ := StreamNet.Tracks.run (ops := []) hL hO rfl (StreamNet.new_tracks hh gc gs oc os gr) h hr
  exact h5

/-- rustls refuses plaintext only if the client or the server hands out more than the limit at once. -/
theorem C50_accepted (hh : Handshaken paired tc ts)
    (h : (StreamNet.new tc ts gc oc gs os gr).run L as = some (sn, G))
    (hc : ∀ t b, tc = some t → .poll (.error (.io (.output b))) ∈ atClient G → b.length ≤ t.limit)
    (hs : ∀ t b, ts = some t → .poll (.error (.io (.output b))) ∈ atServer G → b.length ≤ t.limit) :
    .client .refused ∉ G ∧ .server .refused ∉ G := by
  obtain ⟨⟨cs, h1⟩, ss, h2⟩ := StreamNet.run_parts h
  have hcs := StreamNet.clientPart_spec G
  have hss := StreamNet.serverPart_spec G
  have ht := StreamNet.new_tracks hh gc gs oc os gr
  constructor
  · intro hm
    cases tc with
    | none => exact FullStream.run_not_refused h1 rfl ((hcs.2 _).2 hm)
    | some t =>
      have hD : t.layer.Delivers paired := (ht.toServer.sender _ rfl).1
      obtain ⟨b, hb, hm⟩ := (FullStream.run_too_long (paired := paired) h1 rfl (by simp [StreamNet.new]) hD).1
        ht.toServer.sender ((hcs.2 _).2 hm)
      rw [hcs.1] at hm
      have := hc t b rfl hm
      omega
  · intro hm
    cases ts with
    | none => exact FullStream.run_not_refused h2 rfl ((hss.2 _).2 hm)
    | some t =>
      have hD : t.layer.Delivers paired := (ht.toClient.sender _ rfl).1
      obtain ⟨b, hb, hm⟩ := (FullStream.run_too_long (paired := paired) h2 rfl (by simp [StreamNet.new]) hD).1
        ht.toClient.sender ((hss.2 _).2 hm)
      rw [hss.1] at hm
      have := hs t b rfl hm
      omega

/-- Runs with and without TLS. -/
example : ∃ n G, Handshaken (· = ·) (some (StreamNetSample.tls 5 0)) (some (StreamNetSample.tls 0 5)) ∧
    ServerOptions.Built Toy.lib ServerSample.options ∧
    StreamNetSample.start.run Toy.lib StreamNetSample.acts = some (n, G) ∧
    (.client .refused ∉ G ∧ .server .refused ∉ G) ∧
    (events (atServer G)).filterMap ServerEvent.received? = [NetSample.cmdA, NetSample.cmdC] := by
  obtain ⟨n, G, h, hf⟩ := StreamNetSample.run
  exact ⟨n, G, StreamNetSample.handshaken, StreamNetSample.built, h, hf.1, hf.2.2.2.1⟩

example : ∃ n G, Handshaken (K := Nat) (· = ·) none none ∧
    StreamNetSample.plainStart.run Toy.lib StreamNetSample.plainActs = some (n, G) ∧
    (.client .refused ∉ G ∧ .server .refused ∉ G) ∧
    (events (atServer G)).filterMap ServerEvent.received? = [NetSample.cmdA, NetSample.cmdC] := by
  obtain ⟨n, G, h, hf⟩ := StreamNetSample.plain_run
  exact ⟨n, G, trivial, h, hf.1, hf.2.2.2.1⟩

end ImapFlow

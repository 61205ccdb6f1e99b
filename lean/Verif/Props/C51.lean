import Verif.Proofs.StreamNetWait
import Verif.Proofs.NetDrained
import Verif.Proofs.StreamNetReports
import Verif.Props.C35
import Verif.Props.C36
import Verif.Spec.StreamNetSamples

/-!
# C51: end to end on streams, for the users

The system of `Spec/StreamNet.lean`: a user of a client and a user of a server, each with a stream of
`/repo/src/stream.rs`, with or without TLS.  All claims are about what the users pass to the streams and get back.
`GoodSending` says that the commands are regular, within the limits of the server, and not rejected, and that the codec
round trip holds for them; `GoodUse` says this also for the responses.
-/

namespace ImapFlow

variable {K : Type} {paired : K → K → Prop} {L : Lib} {tc ts : Option (Tls K)} {gc gs : HandleGenerator}
  {oc : ClientOptions} {os : ServerOptions} {gr : Greeting} {as : List StreamNetAct} {sn : StreamNet K}
  {G : List StreamNetItem}

/-- The commands that `next` returns to the user of the server are a beginning of those that the user of the client
enqueued: none is lost, changed, duplicated, or reordered. -/
theorem C51_commands (hL : L.Lawful) (hO : ServerOptions.Built L os) (hmax : 0 < os.maxCommandSize)
    (hh : Handshaken paired tc ts) (h : (StreamNet.new tc ts gc oc gs os gr).run L as = some (sn, G))
    (hr : .client .refused ∉ G ∧ .server .refused ∉ G) (hg : GoodSending L os G) :
    (events (atServer G)).filterMap ServerEvent.received? <+: (atClient G).filterMap StreamItem.enqueued? := by
  obtain ⟨n, T, h1, h2, h3, h4, -⟩ := StreamNet.Tracks.run (ops := []) hL hO rfl (StreamNet.new_tracks hh gc gs oc os gr) h hr
  obtain ⟨ec, es⟩ := StreamNet.run_events h
  have hl := Net.run_linked h1
  have hgood := hg.commands h3 ec
  rw [hl.events_commands h4 es, ← h3.enqueued]
  exact (C36_server_receives_client hL h1 hmax hgood).1

/-- The data that `next` returns to the user of the client are a beginning of those that the user of the server
enqueued. -/
theorem C51_data (hL : L.Lawful) (hO : ServerOptions.Built L os) (hmax : 0 < os.maxCommandSize)
    (hh : Handshaken paired tc ts) (h : (StreamNet.new tc ts gc oc gs os gr).run L as = some (sn, G))
    (hr : .client .refused ∉ G ∧ .server .refused ∉ G) (hg : GoodUse L oc os gr G) :
    (events (atClient G)).filterMap ClientEvent.data? <+:
      ((atServer G).filterMap StreamItem.response?).filterMap Response.data? := by
  obtain ⟨n, T, h1, h2, h3, h4, -⟩ := StreamNet.Tracks.run (ops := []) hL hO rfl (StreamNet.new_tracks hh gc gs oc os gr) h hr
  obtain ⟨ec, es⟩ := StreamNet.run_events h
  have hl := Net.run_linked h1
  obtain ⟨-, hrt⟩ := hl.goodUse hL hmax h3 h4 ec hg
  rw [hl.events_data hL h3 ec, ← hl.messages_data h4]
  exact (C35_client_decodes_server hL h1 hrt).1.filterMap _

/-- The data and statuses that `next` returns to the user of the client are a beginning of those that the user of the
server enqueued, in the same order. -/
theorem C51_responses (hL : L.Lawful) (hO : ServerOptions.Built L os) (hmax : 0 < os.maxCommandSize)
    (hh : Handshaken paired tc ts) (h : (StreamNet.new tc ts gc oc gs os gr).run L as = some (sn, G))
    (hr : .client .refused ∉ G ∧ .server .refused ∉ G) (hg : GoodUse L oc os gr G) :
    (events (atClient G)).filterMap ClientEvent.told? <+: (atServer G).filterMap StreamItem.told? := by
  obtain ⟨n, T, h1, h2, h3, h4, -⟩ := StreamNet.Tracks.run (ops := []) hL hO rfl (StreamNet.new_tracks hh gc gs oc os gr) h hr
  obtain ⟨ec, es⟩ := StreamNet.run_events h
  have hl := Net.run_linked h1
  obtain ⟨hgood, hrt⟩ := hl.goodUse hL hmax h3 h4 ec hg
  rw [hl.events_told hL hgood h3 ec, ← h4.told, ← hl.messages_told hL hmax hgood]
  exact (C35_client_decodes_server hL h1 hrt).1.filterMap _

/-- Besides the commands, `next` returns to the user of the server only that the greeting and responses were sent. -/
theorem C51_nothing_else (hL : L.Lawful) (hO : ServerOptions.Built L os) (hmax : 0 < os.maxCommandSize)
    (hh : Handshaken paired tc ts) (h : (StreamNet.new tc ts gc oc gs os gr).run L as = some (sn, G))
    (hr : .client .refused ∉ G ∧ .server .refused ∉ G) (hg : GoodSending L os G) {e : ServerEvent}
    (he : e ∈ events (atServer G)) :
    (∃ g, e = .greetingSent g) ∨ (∃ hd r, e = .responseSent hd r) ∨ ∃ c, c.isRegular = true ∧ e = .commandReceived c := by
  obtain ⟨n, T, h1, h2, h3, h4, -⟩ := StreamNet.Tracks.run (ops := []) hL hO rfl (StreamNet.new_tracks hh gc gs oc os gr) h hr
  obtain ⟨ec, es⟩ := StreamNet.run_events h
  have hl := Net.run_linked h1
  have hgood := hg.commands h3 ec
  exact hl.events_only hL hmax hgood h4 es he

/-- `next` returns to the user of the client only that commands were sent, the greeting of the server, and responses
that the user of the server passed to the stream or continuation requests for literals. -/
theorem C51_reports (hL : L.Lawful) (hO : ServerOptions.Built L os) (hmax : 0 < os.maxCommandSize)
    (hh : Handshaken paired tc ts) (h : (StreamNet.new tc ts gc oc gs os gr).run L as = some (sn, G))
    (hr : .client .refused ∉ G ∧ .server .refused ∉ G) (hg : GoodUse L oc os gr G) {e : ClientEvent}
    (he : e ∈ events (atClient G)) :
    (∃ hd c, e = .commandSent hd c) ∨ e = .greetingReceived gr ∨
    ∃ r, e = r.report ∧
      (r ∈ (atServer G).filterMap StreamItem.response? ∨ ∃ mode, ServerMessage.response none r ∈ acceptReply L os mode) := by
  obtain ⟨n, T, h1, h2, h3, h4, -⟩ := StreamNet.Tracks.run (ops := []) hL hO rfl (StreamNet.new_tracks hh gc gs oc os gr) h hr
  obtain ⟨ec, es⟩ := StreamNet.run_events h
  have hl := Net.run_linked h1
  obtain ⟨hgood, hrt⟩ := hl.goodUse hL hmax h3 h4 ec hg
  exact hl.reports hL hmax hgood (C35_client_decodes_server hL h1 hrt).1 h3 ec h4 he

/-- The first event that `next` returns to the user of the client is the greeting. -/
theorem C51_greeting_first (hL : L.Lawful) (hO : ServerOptions.Built L os) (hmax : 0 < os.maxCommandSize)
    (hh : Handshaken paired tc ts) (h : (StreamNet.new tc ts gc oc gs os gr).run L as = some (sn, G))
    (hr : .client .refused ∉ G ∧ .server .refused ∉ G) (hg : GoodUse L oc os gr G) {e : ClientEvent}
    (he : (events (atClient G)).head? = some e) : e = .greetingReceived gr := by
  obtain ⟨n, T, h1, h2, h3, h4, -⟩ := StreamNet.Tracks.run (ops := []) hL hO rfl (StreamNet.new_tracks hh gc gs oc os gr) h hr
  obtain ⟨ec, es⟩ := StreamNet.run_events h
  obtain ⟨ops, ht⟩ := (Net.run_linked h1).client
  obtain ⟨l, hl⟩ := List.head?_eq_some_iff.1 he
  have hx := hl
  rw [ec, ← List.filterMap_filterMap, ← h3.results, List.filterMap_filterMap] at hx
  obtain ⟨g, rfl⟩ := Client.first_event hL ht hx
  rcases C51_reports hL hO hmax hh h hr hg (e := .greetingReceived g) (by rw [hl]; exact List.mem_cons_self ..) with
    ⟨_, _, hx⟩ | hx | ⟨r, hx, -⟩
  · cases hx
  · exact hx
  · cases r <;> cases hx

/-- `next` returns no errors of the client and of the server. -/
theorem C51_no_errors (hL : L.Lawful) (hO : ServerOptions.Built L os) (hmax : 0 < os.maxCommandSize)
    (hh : Handshaken paired tc ts) (h : (StreamNet.new tc ts gc oc gs os gr).run L as = some (sn, G))
    (hr : .client .refused ∉ G ∧ .server .refused ∉ G) (hg : GoodUse L oc os gr G) :
    (∀ e, .poll (.error (.error e)) ∉ atClient G ∧ .returned (.error (.state e)) ∉ atClient G) ∧
    ∀ e, .poll (.error (.error e)) ∉ atServer G ∧ .returned (.error (.state e)) ∉ atServer G := by
  obtain ⟨n, T, h1, h2, h3, h4, -⟩ := StreamNet.Tracks.run (ops := []) hL hO rfl (StreamNet.new_tracks hh gc gs oc os gr) h hr
  obtain ⟨ec, es⟩ := StreamNet.run_events h
  have hl := Net.run_linked h1
  obtain ⟨hgood, hrt⟩ := hl.goodUse hL hmax h3 h4 ec hg
  have k1 := fun e => h3.no_errors (C35_client_decodes_server hL h1 hrt).2 (e := e)
  have k2 := fun e => h4.no_errors (C36_server_receives_client hL h1 hmax hgood).2.1 (e := e)
  obtain ⟨⟨cs, p1⟩, ss, p2⟩ := StreamNet.run_parts h
  rw [← (StreamNet.clientPart_spec G).1] at k1 ⊢
  rw [← (StreamNet.serverPart_spec G).1] at k2 ⊢
  exact ⟨fun e => ⟨k1 e, fun hm => k1 e (FullStream.run_state_error p1 hm)⟩,
    fun e => ⟨k2 e, fun hm => k2 e (FullStream.run_state_error p2 hm)⟩⟩

/-- If both users wait in `next` and nothing is on the way, everything was done: all commands were delivered to the
user of the server and reported as sent to the user of the client, and all data and statuses were delivered to the user
of the client. -/
theorem C51_no_deadlock (hL : L.Lawful) (hO : ServerOptions.Built L os) (hmax : 0 < os.maxCommandSize)
    (hh : Handshaken paired tc ts) (h : (StreamNet.new tc ts gc oc gs os gr).run L as = some (sn, G))
    (hr : .client .refused ∉ G ∧ .server .refused ∉ G) (hg : GoodUse L oc os gr G) (hw : sn.Waiting) :
    (events (atServer G)).filterMap ServerEvent.received? = (atClient G).filterMap StreamItem.enqueued? ∧
    (events (atClient G)).filterMap ClientEvent.sentCommand? = (atClient G).filterMap StreamItem.enqueued? ∧
    (events (atClient G)).filterMap ClientEvent.data? =
      ((atServer G).filterMap StreamItem.response?).filterMap Response.data? ∧
    (events (atClient G)).filterMap ClientEvent.told? = (atServer G).filterMap StreamItem.told? := by
  have ht := StreamNet.new_tracks hh gc gs oc os gr
  obtain ⟨n, T, h1, h2, h3, h4, -⟩ := StreamNet.Tracks.run (ops := []) hL hO rfl ht h hr
  obtain ⟨ec, es⟩ := StreamNet.run_events h
  have hl := Net.run_linked h1
  obtain ⟨hgood, hrt⟩ := hl.goodUse hL hmax h3 h4 ec hg
  obtain ⟨w1, w2, w3, w4⟩ := hw
  obtain ⟨a1, a2⟩ := StreamNet.Tracks.waiting (ops := []) hL hO rfl ht h hr
  have ha := (a1 w3).resolve_left (fun h => by simp [StreamNet.new] at h)
  have ha' := (a2 w4).resolve_left (fun h => by simp [StreamNet.new] at h)
  obtain ⟨⟨A, hA⟩, B, hB⟩ := hl.asked hL hrt h3 h4 ha ha'
  have c1 : n.toServer = [] := by
    have := h2.toServer
    rw [w1, h2.clientSound.reading w3] at this
    exact this.empty
  have c2 : n.toClient = [] := by
    have := h2.toClient
    rw [w2, h2.serverSound.reading w4] at this
    exact this.empty
  obtain ⟨d1, d2⟩ := hl.done hL hO hrt hA hB c1 c2 hmax hgood
  have d3 := hl.drained hL hO hrt hA hB c1 c2 hmax hgood
  refine ⟨?_, ?_, ?_, ?_⟩
  · rw [hl.events_commands h4 es, d1, h3.enqueued]
  · rw [h3.events_sent ec, d2, ← h3.enqueued]
    simp [ClientEvent.sentCommand?, Function.comp_def]
  · rw [hl.events_data hL h3 ec, d3, hl.messages_data h4]
  · rw [hl.events_told hL hgood h3 ec, ← h4.told, ← hl.messages_told hL hmax hgood, d3]

/-- Without the hypothesis that no command is rejected this is false: the server rejects a literal, its user enqueues
a response, both users wait in `next`, nothing is on the way, and the response stays in the queue (see
`C25_server_false`) until the client sends something else. -/
theorem C51_stalls : ∃ (n : StreamNet Nat) (G : List StreamNetItem),
    StreamNetSample.plainStart.run Toy.lib StreamNetSample.rejectActs = some (n, G) ∧
    (.client .refused ∉ G ∧ .server .refused ∉ G) ∧ n.Waiting ∧
    ((atServer G).filterMap StreamItem.response?).filterMap Response.data? = [.other (ClientSample.str "d")] ∧
    (events (atClient G)).filterMap ClientEvent.data? = [] := by
  obtain ⟨n, G, h, h1, h2, -, h3, h4⟩ := StreamNetSample.reject_run
  exact ⟨n, G, h, h1, h2, by rw [h3]; rfl, h4⟩

/-- A run with TLS in which both users wait, two commands were delivered and data were returned. -/
example : ∃ n G, Handshaken (· = ·) (some (StreamNetSample.tls 5 0)) (some (StreamNetSample.tls 0 5)) ∧
    ServerOptions.Built Toy.lib ServerSample.options ∧ 0 < ServerSample.options.maxCommandSize ∧
    StreamNetSample.start.run Toy.lib StreamNetSample.acts = some (n, G) ∧
    (.client .refused ∉ G ∧ .server .refused ∉ G) ∧ GoodUse Toy.lib .default ServerSample.options ServerSample.greeting G ∧
    n.Waiting ∧ (atClient G).filterMap StreamItem.enqueued? = [NetSample.cmdA, NetSample.cmdC] ∧
    (atServer G).filterMap StreamItem.response? = [.data (.other (ClientSample.str "d"))] := by
  obtain ⟨n, G, h, hf⟩ := StreamNetSample.run
  exact ⟨n, G, StreamNetSample.handshaken, StreamNetSample.built, by decide, h, hf.1, StreamNetSample.goodUse hf, hf.2.1,
    hf.2.2.1, hf.2.2.2.2.2.1⟩

/-- A run without TLS. -/
example : ∃ n G, Handshaken (K := Nat) (· = ·) none none ∧
    StreamNetSample.plainStart.run Toy.lib StreamNetSample.plainActs = some (n, G) ∧
    (.client .refused ∉ G ∧ .server .refused ∉ G) ∧ GoodUse Toy.lib .default ServerSample.options ServerSample.greeting G ∧
    n.Waiting ∧ (atClient G).filterMap StreamItem.enqueued? = [NetSample.cmdA, NetSample.cmdC] := by
  obtain ⟨n, G, h, hf⟩ := StreamNetSample.plain_run
  exact ⟨n, G, trivial, h, hf.1, StreamNetSample.goodUse hf, hf.2.1, hf.2.2.1⟩

end ImapFlow

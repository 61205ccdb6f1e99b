import Verif.Proofs.StreamMixed
import Verif.Proofs.DialogueTold
import Verif.Props.C35
import Verif.Props.C44
import Verif.Spec.StreamRejectSamples

/-!
# C73: end to end on streams, client and server agree about rejected literals

C44 for the users of two streams (`Spec/StreamNet.lean`), with or without TLS.  What the users get is read off the results
of `next`.  What they asked for is read off `T`, the record of the calls that the streams and the users made on the client
and on the server, with the results of these calls (by C50 there is always exactly one); `MixedCommands` and
`PoliteServer` are those of C44.  The theorems `C73_users_…` use only what the users did (`MixedUse`).
-/

namespace ImapFlow

variable {K : Type} {paired : K → K → Prop} {L : Lib} {tc ts : Option (Tls K)} {gc gs : HandleGenerator}
  {oc : ClientOptions} {os : ServerOptions} {gr : Greeting} {as : List StreamNetAct} {sn : StreamNet K}
  {G : List StreamNetItem} {n : Net} {T : List NItem}

/-- `next` tells the user of the server about each command that the user of the client enqueued, in order: it returns the
command, or, if one of its literals is too long, an error with exactly the bytes before this literal. -/
theorem C73_server_in_step (hL : L.Lawful) (hO : ServerOptions.Built L os) (hmax : 0 < os.maxCommandSize)
    (hh : Handshaken paired tc ts) (h : (StreamNet.new tc ts gc oc gs os gr).run L as = some (sn, G))
    (hr : .client .refused ∉ G ∧ .server .refused ∉ G)
    (hT : (Net.new gc oc gs os gr).run L (G.flatMap StreamNetItem.calls) = .ok (n, T))
    (hrt : ∀ m ∈ serverMessages gr (serverItems T), m.RoundTrip L oc)
    (hE : MixedCommands L os (clientEnqueued (clientItems T))) (hP : PoliteServer gr T) :
    verdicts (atServer G) <+: ((atClient G).filterMap StreamItem.enqueued?).map (Command.verdict L os) := by
  obtain ⟨-, h3, h4, -⟩ := StreamNet.traced hL hO hh h hr hT
  rw [(Net.run_linked hT).verdicts h4 (StreamNet.server_outcomes h), ← h3.enqueued, List.map_map]
  have := (C44_server_in_step hL hT hO hmax hrt hE hP).1.filterMap SItem.verdict?
  rwa [serverRead_verdicts] at this

/-- `next` reports each command to the user of the client as the server treats it, in the order in which they were
enqueued: sent, or rejected with the BAD of the server. -/
theorem C73_client_in_step (hL : L.Lawful) (hO : ServerOptions.Built L os) (hmax : 0 < os.maxCommandSize)
    (hh : Handshaken paired tc ts) (h : (StreamNet.new tc ts gc oc gs os gr).run L as = some (sn, G))
    (hr : .client .refused ∉ G ∧ .server .refused ∉ G)
    (hT : (Net.new gc oc gs os gr).run L (G.flatMap StreamNetItem.calls) = .ok (n, T))
    (hrt : ∀ m ∈ serverMessages gr (serverItems T), m.RoundTrip L oc)
    (hE : MixedCommands L os (clientEnqueued (clientItems T))) (hP : PoliteServer gr T) {k : Nat} {e : ClientEvent}
    (he : ((events (atClient G)).filter ClientEvent.isTerminal)[k]? = some e) :
    ∃ hd c, (clientEnqueued (clientItems T))[k]? = some (hd, c) ∧
      ((atClient G).filterMap StreamItem.enqueued?)[k]? = some c ∧ ReportedAs L os (hd, c) e := by
  obtain ⟨-, h3, h4, -⟩ := StreamNet.traced hL hO hh h hr hT
  rw [h3.events_terminals (StreamNet.run_events h).1] at he
  obtain ⟨⟨hd, c⟩, h5, h6⟩ := C44_client_in_step hL hT hO hmax hrt hE hP he
  refine ⟨hd, c, h5, ?_, h6⟩
  rw [← h3.enqueued, List.getElem?_map, h5]
  rfl

/-- If both users wait in `next` and nothing is on the way, the user of the server was told about all commands, and the
user of the client got a report for each of them. -/
theorem C73_no_deadlock (hL : L.Lawful) (hO : ServerOptions.Built L os) (hmax : 0 < os.maxCommandSize)
    (hh : Handshaken paired tc ts) (h : (StreamNet.new tc ts gc oc gs os gr).run L as = some (sn, G))
    (hr : .client .refused ∉ G ∧ .server .refused ∉ G)
    (hT : (Net.new gc oc gs os gr).run L (G.flatMap StreamNetItem.calls) = .ok (n, T))
    (hrt : ∀ m ∈ serverMessages gr (serverItems T), m.RoundTrip L oc)
    (hE : MixedCommands L os (clientEnqueued (clientItems T))) (hP : PoliteServer gr T) (hw : sn.Waiting) :
    verdicts (atServer G) = ((atClient G).filterMap StreamItem.enqueued?).map (Command.verdict L os) ∧
    ((events (atClient G)).filter ClientEvent.isTerminal).length =
      ((atClient G).filterMap StreamItem.enqueued?).length := by
  obtain ⟨-, h3, h4, -⟩ := StreamNet.traced hL hO hh h hr hT
  have hl := Net.run_linked hT
  obtain ⟨⟨A, hA⟩, ⟨B, hB⟩, c1, c2⟩ := StreamNet.waiting_starved hL hO hh h hr hT hrt hw
  obtain ⟨h5, h6⟩ := hl.settled hL hO hrt hA hB c1 c2 hmax hE hP
  rw [hl.verdicts h4 (StreamNet.server_outcomes h), h3.events_terminals (StreamNet.run_events h).1, ← h3.enqueued,
    List.map_map, List.length_map, h5, serverRead_verdicts]
  exact ⟨rfl, h6⟩

/-! ## In terms of the users -/

/-- Each command is told to the user of the server, in order: the command, or an error with exactly the bytes before the
literal that is too long. -/
theorem C73_users_server (hL : L.Lawful) (hO : ServerOptions.Built L os) (hmax : 0 < os.maxCommandSize)
    (hh : Handshaken paired tc ts) (h : (StreamNet.new tc ts gc oc gs os gr).run L as = some (sn, G))
    (hr : .client .refused ∉ G ∧ .server .refused ∉ G) (hu : MixedUse L oc os gr (atClient G) (atServer G)) :
    verdicts (atServer G) <+: ((atClient G).filterMap StreamItem.enqueued?).map (Command.verdict L os) := by
  obtain ⟨n, T, hT⟩ := StreamNet.calls hL hO hh h hr
  obtain ⟨hE, hP, hrt⟩ := hu.net hL hO hmax hh h hr hT
  exact C73_server_in_step hL hO hmax hh h hr hT hrt hE hP

/-- The user of the client is told how each command ended, in order. -/
theorem C73_users_client (hL : L.Lawful) (hO : ServerOptions.Built L os) (hmax : 0 < os.maxCommandSize)
    (hh : Handshaken paired tc ts) (h : (StreamNet.new tc ts gc oc gs os gr).run L as = some (sn, G))
    (hr : .client .refused ∉ G ∧ .server .refused ∉ G) (hu : MixedUse L oc os gr (atClient G) (atServer G)) {k : Nat} {e : ClientEvent}
    (he : ((events (atClient G)).filter ClientEvent.isTerminal)[k]? = some e) :
    ∃ hd c, ((atClient G).filterMap StreamItem.enqueued?)[k]? = some c ∧ ReportedAs L os (hd, c) e := by
  obtain ⟨n, T, hT⟩ := StreamNet.calls hL hO hh h hr
  obtain ⟨hE, hP, hrt⟩ := hu.net hL hO hmax hh h hr hT
  obtain ⟨hd, c, -, h1, h2⟩ := C73_client_in_step hL hO hmax hh h hr hT hrt hE hP he
  exact ⟨hd, c, h1, h2⟩

/-- The data and statuses that the user of the client gets are a beginning of those that the user of the server enqueued:
the BADs of rejected literals are not among them, and nothing is lost between them. -/
theorem C73_users_told (hL : L.Lawful) (hO : ServerOptions.Built L os) (hmax : 0 < os.maxCommandSize)
    (hh : Handshaken paired tc ts) (h : (StreamNet.new tc ts gc oc gs os gr).run L as = some (sn, G))
    (hr : .client .refused ∉ G ∧ .server .refused ∉ G) (hu : MixedUse L oc os gr (atClient G) (atServer G)) :
    (events (atClient G)).filterMap ClientEvent.told? <+: (atServer G).filterMap StreamItem.told? := by
  obtain ⟨n, T, hT⟩ := StreamNet.calls hL hO hh h hr
  obtain ⟨hE, hP, hrt⟩ := hu.net hL hO hmax hh h hr hT
  obtain ⟨-, h3, h4, -⟩ := StreamNet.traced hL hO hh h hr hT
  have hl := Net.run_linked hT
  rw [hl.events_told_fair hL h3 (StreamNet.run_events h).1, ← h4.told]
  have hk := hl.mixed_heard hL hO hrt hmax hE hP
  have : (clientItems T).filterMap CItem.heard? = (clientItems T).filterMap CItem.told? := by
    obtain ⟨cops, hct⟩ := hl.client
    rw [← Client.told_events hL hct, List.filterMap_filterMap]
    rfl
  rwa [this] at hk

/-- Each event of the client is the greeting, the end of a command as the server treats it, or data or a status of the
user of the server; and `next` of the client returns no error of the client. -/
theorem C73_users_events (hL : L.Lawful) (hO : ServerOptions.Built L os) (hmax : 0 < os.maxCommandSize)
    (hh : Handshaken paired tc ts) (h : (StreamNet.new tc ts gc oc gs os gr).run L as = some (sn, G))
    (hr : .client .refused ∉ G ∧ .server .refused ∉ G) (hu : MixedUse L oc os gr (atClient G) (atServer G)) :
    (∀ e ∈ events (atClient G), e = .greetingReceived gr ∨
      (∃ hd, ∃ c ∈ (atClient G).filterMap StreamItem.enqueued?, ReportedAs L os (hd, c) e) ∨
      ∃ r ∈ (atServer G).filterMap StreamItem.told?, e.told? = some r) ∧
    ∀ e, .returned (.error (.state e)) ∉ atClient G := by
  have ht := C73_users_told hL hO hmax hh h hr hu
  have hc := fun k e => C73_users_client (k := k) (e := e) hL hO hmax hh h hr hu
  obtain ⟨n, T, hT⟩ := StreamNet.calls hL hO hh h hr
  obtain ⟨hE, hP, hrt⟩ := hu.net hL hO hmax hh h hr hT
  obtain ⟨-, h3, h4, -⟩ := StreamNet.traced hL hO hh h hr hT
  have hl := Net.run_linked hT
  have hev : events (atClient G) = (clientItems T).filterMap CItem.event? := by
    have h1 : events (atClient G) = ((clientItems T).filterMap CItem.result?).filterMap Except.toOption := by
      rw [(StreamNet.run_events h).1, h3.results, List.filterMap_filterMap]
    rw [h1, List.filterMap_filterMap]
    refine filterMap_congr' fun i _ => ?_
    cases i <;> rfl
  refine ⟨?_, ?_⟩
  · intro e he
    rcases (hl.agreed hL hO hrt hmax hE hP (Q := []) (by simp)).2.2.2 e (hev ▸ he) with h5 | h5 | ⟨g, rfl, h5⟩
    · obtain ⟨k, hk⟩ := List.mem_iff_getElem?.1 (List.mem_filter.2 ⟨he, h5⟩)
      obtain ⟨hd, c, h6, h7⟩ := hc k e hk
      exact .inr (.inl ⟨hd, c, List.mem_of_getElem? h6, h7⟩)
    · obtain ⟨r, h6⟩ := Option.isSome_iff_exists.1 h5
      exact .inr (.inr ⟨r, ht.subset (List.mem_filterMap.2 ⟨e, he, h6⟩), h6⟩)
    · obtain ⟨sops, hst⟩ := hl.server
      obtain ⟨k, hk⟩ := List.mem_iff_getElem?.1 h5
      have h0 := (Server.greetingFirst hst k _ hk).1 ⟨g, rfl⟩
      subst h0
      cases hk
      exact .inl rfl
  · intro e he
    obtain ⟨⟨cs, p1⟩, -⟩ := StreamNet.run_parts h
    have h5 := FullStream.run_state_error p1 (e := e)
    rw [(StreamNet.clientPart_spec G).1] at h5
    exact h3.no_errors (C35_client_decodes_server hL hT hrt).2 (h5 he)

/-- The first event of the client is the greeting. -/
theorem C73_users_greeting_first (hL : L.Lawful) (hO : ServerOptions.Built L os) (hmax : 0 < os.maxCommandSize)
    (hh : Handshaken paired tc ts) (h : (StreamNet.new tc ts gc oc gs os gr).run L as = some (sn, G))
    (hr : .client .refused ∉ G ∧ .server .refused ∉ G) (hu : MixedUse L oc os gr (atClient G) (atServer G)) {e : ClientEvent}
    (he : (events (atClient G)).head? = some e) : e = .greetingReceived gr := by
  obtain ⟨n, T, hT⟩ := StreamNet.calls hL hO hh h hr
  obtain ⟨-, h3, -⟩ := StreamNet.traced hL hO hh h hr hT
  obtain ⟨ops, ht⟩ := (Net.run_linked hT).client
  obtain ⟨l, hl⟩ := List.head?_eq_some_iff.1 he
  have hx := hl
  rw [(StreamNet.run_events h).1, ← List.filterMap_filterMap, ← h3.results, List.filterMap_filterMap] at hx
  obtain ⟨g, rfl⟩ := Client.first_event hL ht hx
  rcases (C73_users_events hL hO hmax hh h hr hu).1 (.greetingReceived g) (by rw [hl]; exact List.mem_cons_self ..) with
    hx | ⟨hd, c, -, hx⟩ | ⟨r, -, hx⟩
  · exact hx
  · unfold ReportedAs at hx
    split at hx
    · cases hx
    · obtain ⟨_, -, hx⟩ := hx
      cases hx
  · cases hx

/-- The server reports only commands of the client, and that greeting and responses are sent. -/
theorem C73_users_server_events (hL : L.Lawful) (hO : ServerOptions.Built L os) (hmax : 0 < os.maxCommandSize)
    (hh : Handshaken paired tc ts) (h : (StreamNet.new tc ts gc oc gs os gr).run L as = some (sn, G))
    (hr : .client .refused ∉ G ∧ .server .refused ∉ G) (hu : MixedUse L oc os gr (atClient G) (atServer G)) {e : ServerEvent}
    (he : e ∈ events (atServer G)) :
    (∃ g, e = .greetingSent g) ∨ (∃ hd r, e = .responseSent hd r) ∨
    ∃ c ∈ (atClient G).filterMap StreamItem.enqueued?, e = .commandReceived c := by
  obtain ⟨n, T, hT⟩ := StreamNet.calls hL hO hh h hr
  obtain ⟨hE, hP, hrt⟩ := hu.net hL hO hmax hh h hr hT
  obtain ⟨-, h3, h4, -⟩ := StreamNet.traced hL hO hh h hr hT
  have hl := Net.run_linked hT
  rw [(StreamNet.run_events h).2] at he
  obtain ⟨i, hi, hie⟩ := List.mem_filterMap.1 he
  have hx : Except.ok e ∈ (atServer G).filterMap StreamItem.poll? := by
    refine List.mem_filterMap.2 ⟨i, hi, ?_⟩
    cases hp : i.poll? with
    | none => rw [hp] at hie; cases hie
    | some x => rw [hp] at hie; cases x <;> cases hie; rfl
  rw [← h4.results] at hx
  obtain ⟨j, hj, hje⟩ := List.mem_filterMap.1 hx
  obtain ⟨v, hv⟩ := hl.server_guard hj
  cases j with
  | sent e' =>
    cases hje
    obtain ⟨-, m, -, hm⟩ := hv
    cases m with
    | greeting g => cases hm; exact .inl ⟨g, rfl⟩
    | response hd r =>
      cases hd with
      | none => cases hm
      | some hd => cases hm; exact .inr (.inl ⟨hd, r, rfl⟩)
  | received w e' =>
    cases hje
    have hm := (C44_server_in_step hL hT hO hmax hrt hE hP).1.subset (List.mem_filter.2 ⟨hj, rfl⟩)
    obtain ⟨x, hx1, hx2⟩ := List.mem_map.1 hm
    unfold Command.serverRead at hx2
    split at hx2
    · cases hx2
      refine .inr (.inr ⟨x.2, ?_, rfl⟩)
      rw [← h3.enqueued]
      exact List.mem_map_of_mem hx1
    · cases hx2
  | _ => cases hje

/-- If both users wait in `next` and nothing is on the way, the user of the server was told about all commands, and the
user of the client got a report for each of them. -/
theorem C73_users_rest (hL : L.Lawful) (hO : ServerOptions.Built L os) (hmax : 0 < os.maxCommandSize)
    (hh : Handshaken paired tc ts) (h : (StreamNet.new tc ts gc oc gs os gr).run L as = some (sn, G))
    (hr : .client .refused ∉ G ∧ .server .refused ∉ G) (hu : MixedUse L oc os gr (atClient G) (atServer G)) (hw : sn.Waiting) :
    verdicts (atServer G) = ((atClient G).filterMap StreamItem.enqueued?).map (Command.verdict L os) ∧
    ((events (atClient G)).filter ClientEvent.isTerminal).length =
      ((atClient G).filterMap StreamItem.enqueued?).length := by
  obtain ⟨n, T, hT⟩ := StreamNet.calls hL hO hh h hr
  obtain ⟨hE, hP, hrt⟩ := hu.net hL hO hmax hh h hr hT
  exact C73_no_deadlock hL hO hmax hh h hr hT hrt hE hP hw

/-- The run with TLS below, in terms of the users. -/
example : ∃ n G, Handshaken (· = ·) (some (StreamNetSample.tls 5 0)) (some (StreamNetSample.tls 0 5)) ∧
    StreamNetSample.start.run Toy.lib (StreamDialogueSample.play StreamNetSample.start StreamRejectSample.script) =
      some (n, G) ∧ n.Waiting ∧ (.client .refused ∉ G ∧ .server .refused ∉ G) ∧
    MixedUse Toy.lib .default ServerSample.options ServerSample.greeting (atClient G) (atServer G) ∧ StreamRejectSample.Told G ∧
    (events (atClient G)).filterMap ClientEvent.told? =
      [.status (.tagged (ClientSample.str "A") ⟨.bad, none, ClientSample.str "t"⟩)] := by
  obtain ⟨n, G, h, hw, hs, hp, ht⟩ := StreamRejectSample.tls_users
  exact ⟨n, G, StreamNetSample.handshaken, h, hw, hs.1, hs.mixed, hp, ht⟩

/-- With TLS: a command with two literals is delivered, one whose second literal is too long is rejected, and a third one
is delivered.  Meanwhile the user of the server answers the first one with a BAD of its own. -/
example : ∃ n G m T, Handshaken (· = ·) (some (StreamNetSample.tls 5 0)) (some (StreamNetSample.tls 0 5)) ∧
    StreamNetSample.start.run Toy.lib (StreamDialogueSample.play StreamNetSample.start StreamRejectSample.script) =
      some (n, G) ∧ n.Waiting ∧ (.client .refused ∉ G ∧ .server .refused ∉ G) ∧
    NetSample.start.run Toy.lib (G.flatMap StreamNetItem.calls) = .ok (m, T) ∧
    (∀ m ∈ serverMessages ServerSample.greeting (serverItems T), m.RoundTrip Toy.lib .default) ∧
    MixedCommands Toy.lib ServerSample.options (clientEnqueued (clientItems T)) ∧
    PoliteServer ServerSample.greeting T ∧ StreamRejectSample.Told G := by
  obtain ⟨n, G, h, hw, hs, hp⟩ := StreamRejectSample.tls_run
  obtain ⟨h1, m, T, h2, h3, h4, h5⟩ := hs.hypotheses
  exact ⟨n, G, m, T, StreamNetSample.handshaken, h, hw, h1, h2, h3, h4, h5, hp⟩

/-- The same without TLS. -/
example : ∃ n G m T, StreamNetSample.plainStart.run Toy.lib
      (StreamDialogueSample.play StreamNetSample.plainStart StreamRejectSample.script) = some (n, G) ∧ n.Waiting ∧
    (.client .refused ∉ G ∧ .server .refused ∉ G) ∧
    NetSample.start.run Toy.lib (G.flatMap StreamNetItem.calls) = .ok (m, T) ∧
    (∀ m ∈ serverMessages ServerSample.greeting (serverItems T), m.RoundTrip Toy.lib .default) ∧
    MixedCommands Toy.lib ServerSample.options (clientEnqueued (clientItems T)) ∧
    PoliteServer ServerSample.greeting T ∧ StreamRejectSample.Told G := by
  obtain ⟨n, G, h, hw, hs, hp⟩ := StreamRejectSample.plain_run
  obtain ⟨h1, m, T, h2, h3, h4, h5⟩ := hs.hypotheses
  exact ⟨n, G, m, T, h, hw, h1, h2, h3, h4, h5, hp⟩

end ImapFlow

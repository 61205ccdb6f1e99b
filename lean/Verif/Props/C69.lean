import Verif.Proofs.DialogueOrder
import Verif.Proofs.RelayTurn
import Verif.Props.C63

/-!
# C69: end to end, data and statuses are delivered also during dialogues

What the user of the server says besides the answers to AUTHENTICATE and IDLE: data (`enqueue_data`) and statuses
(`enqueue_status`), at any time, also while a command with literals is being sent, during AUTHENTICATE, and during IDLE.
C51 has this only for regular commands that are not rejected.  The system is that of C62: two streams
(`Spec/StreamNet.lean`), with or without TLS.
-/

namespace ImapFlow

variable {K : Type} {paired : K → K → Prop} {L : Lib} {tc ts : Option (Tls K)} {gc gs : HandleGenerator}
  {oc : ClientOptions} {os : ServerOptions} {gr : Greeting} {as : List StreamNetAct} {sn sn' : StreamNet K}
  {G G' : List StreamNetItem} {n : Net} {T : List NItem} {ops : List NetOp}

/-- Without streams: the client reports the data and statuses that the user of the server enqueued, in order, as what they
are, and nothing else. -/
theorem C69_reported (hL : L.Lawful) (h : (Net.new gc oc gs os gr).run L ops = .ok (n, T))
    (hO : ServerOptions.Built L os) (hmax : 0 < os.maxCommandSize)
    (hrt : ∀ m ∈ serverMessages gr (serverItems T), m.RoundTrip L oc)
    (hF : FairClient L os (clientItems T)) (hP : OrderlyServer (serverItems T)) :
    ((clientItems T).filterMap CItem.event?).filterMap ClientEvent.told? <+: (serverItems T).filterMap SItem.told? := by
  obtain ⟨cops, hct⟩ := (Net.run_linked h).client
  rw [Client.told_events hL hct]
  exact (Net.run_linked h).told_prefix hL hO hrt hmax hF hP

/-- The data and statuses that `next` returns to the user of the client are a beginning of those that the user of the
server enqueued. -/
theorem C69_streams (hL : L.Lawful) (hO : ServerOptions.Built L os) (hmax : 0 < os.maxCommandSize)
    (hh : Handshaken paired tc ts) (h : (StreamNet.new tc ts gc oc gs os gr).run L as = some (sn, G))
    (hr : .client .refused ∉ G ∧ .server .refused ∉ G)
    (hT : (Net.new gc oc gs os gr).run L (G.flatMap StreamNetItem.calls) = .ok (n, T))
    (hrt : ∀ m ∈ serverMessages gr (serverItems T), m.RoundTrip L oc)
    (hF : FairClient L os (clientItems T)) (hP : OrderlyServer (serverItems T)) :
    (events (atClient G)).filterMap ClientEvent.told? <+: (atServer G).filterMap StreamItem.told? := by
  obtain ⟨-, h3, h4, -⟩ := StreamNet.traced hL hO hh h hr hT
  obtain ⟨ec, -⟩ := StreamNet.run_events h
  have hl := Net.run_linked hT
  rw [hl.events_told_fair hL h3 ec, ← h4.told]
  exact hl.told_prefix hL hO hrt hmax hF hP

/-- A status with the tag of a command is reported after the last event of this command. -/
theorem C69_order (hL : L.Lawful) (hO : ServerOptions.Built L os) (hmax : 0 < os.maxCommandSize)
    (hh : Handshaken paired tc ts) (h : (StreamNet.new tc ts gc oc gs os gr).run L as = some (sn, G))
    (hr : .client .refused ∉ G ∧ .server .refused ∉ G)
    (hT : (Net.new gc oc gs os gr).run L (G.flatMap StreamNetItem.calls) = .ok (n, T))
    (hrt : ∀ m ∈ serverMessages gr (serverItems T), m.RoundTrip L oc)
    (hF : FairClient L os (clientItems T)) (hP : OrderlyServer (serverItems T)) {E1 E2 : List ClientEvent} {t : Tag}
    {b : StatusBody} (he : events (atClient G) = E1 ++ .statusReceived (.tagged t b) :: E2) :
    ∃ hd cmd, (hd, cmd) ∈ clientEnqueued (clientItems T) ∧ cmd.tag = t ∧ ∃ e ∈ E1, e.isTerminal = true ∧ e.Reports hd cmd := by
  obtain ⟨-, h3, -, -⟩ := StreamNet.traced hL hO hh h hr hT
  obtain ⟨ec, -⟩ := StreamNet.run_events h
  refine (Net.run_linked hT).status_reports hL hO hrt hmax hF hP (E1 := E1) (E2 := E2) (b := b) ?_
  have h1 : events (atClient G) = ((clientItems T).filterMap CItem.result?).filterMap Except.toOption := by
    rw [ec, h3.results, List.filterMap_filterMap]
  rw [← he, h1, List.filterMap_filterMap]
  refine filterMap_congr' fun i _ => ?_
  cases i <;> rfl

/-- If both users wait in `next` and nothing is on the way, the user of the client got all of them. -/
theorem C69_rest (hL : L.Lawful) (hO : ServerOptions.Built L os) (hmax : 0 < os.maxCommandSize)
    (hh : Handshaken paired tc ts) (h : (StreamNet.new tc ts gc oc gs os gr).run L as = some (sn, G))
    (hr : .client .refused ∉ G ∧ .server .refused ∉ G)
    (hT : (Net.new gc oc gs os gr).run L (G.flatMap StreamNetItem.calls) = .ok (n, T))
    (hrt : ∀ m ∈ serverMessages gr (serverItems T), m.RoundTrip L oc)
    (hF : FairClient L os (clientItems T)) (hP : OrderlyServer (serverItems T)) (hw : sn.Waiting) :
    (events (atClient G)).filterMap ClientEvent.told? = (atServer G).filterMap StreamItem.told? := by
  obtain ⟨-, h3, h4, -⟩ := StreamNet.traced hL hO hh h hr hT
  obtain ⟨ec, -⟩ := StreamNet.run_events h
  have hl := Net.run_linked hT
  obtain ⟨⟨A, hA⟩, ⟨B, hB⟩, c1, c2⟩ := StreamNet.waiting_starved hL hO hh h hr hT hrt hw
  rw [hl.events_told_fair hL h3 ec, ← h4.told]
  exact hl.told_starved hL hO hrt hmax hF hP hA hB c1 c2

/-- Whatever the users did: if from now on both only call `next`, then (by C63 they wait after finitely many steps, and) when
both wait, the user of the client got everything that the user of the server had enqueued. -/
theorem C69_delivered (hL : L.Lawful) (hO : ServerOptions.Built L os) (hmax : 0 < os.maxCommandSize)
    (hh : Handshaken paired tc ts) (h : (StreamNet.new tc ts gc oc gs os gr).run L as = some (sn, G))
    (hr : .client .refused ∉ G ∧ .server .refused ∉ G)
    (hT : (Net.new gc oc gs os gr).run L (G.flatMap StreamNetItem.calls) = .ok (n, T))
    (hC : ClearServer L oc os gr (serverItems T)) (hF : FairClient L os (clientItems T))
    (hP : OrderlyServer (serverItems T)) (hu : sn.Unattended L sn' G')
    (hr' : .client .refused ∉ G' ∧ .server .refused ∉ G') (hw : sn'.Waiting) :
    (events (atClient (G ++ G'))).filterMap ClientEvent.told? = (atServer G).filterMap StreamItem.told? := by
  obtain ⟨as', hrun, hint⟩ := hu.run h
  obtain ⟨n', U, hU⟩ := (Net.run_linked hT).run_ok hL hO (G'.flatMap StreamNetItem.calls)
  obtain ⟨h1, -, h2, h3, h4⟩ := Net.Linked.unattended hL hO hmax hT hC hF hP hint hU
  have hrr : StreamNetItem.client .refused ∉ G ++ G' ∧ StreamNetItem.server .refused ∉ G ++ G' :=
    ⟨by simp [hr.1, hr'.1], by simp [hr.2, hr'.2]⟩
  rw [← List.flatMap_append] at h1
  rw [C69_rest hL hO hmax hh hrun hrr h1 h2 h3 h4 hw]
  obtain ⟨-, -, k4, -⟩ := StreamNet.traced hL hO hh h hr hT
  obtain ⟨-, -, k5, -⟩ := StreamNet.traced hL hO hh hrun hrr h1
  obtain ⟨-, hauto⟩ := Net.run_automatic hint hU
  rw [← k4.told, ← k5.told, serverItems_append, List.filterMap_append]
  have : (serverItems U).filterMap SItem.told? = [] := by
    refine List.filterMap_eq_nil_iff.2 fun i hi => ?_
    have := hauto i hi
    cases i with
    | enqueue => exact this.elim
    | _ => rfl
  rw [this, List.append_nil]

/-- Data at the beginning, a status during AUTHENTICATE and data during IDLE, with TLS: all of them arrive. -/
example : ∃ n G m T, Handshaken (· = ·) (some (StreamNetSample.tls 5 0)) (some (StreamNetSample.tls 0 5)) ∧
    StreamNetSample.start.run Toy.lib (StreamDialogueSample.play StreamNetSample.start StreamDialogueSample.script) =
      some (n, G) ∧ n.Waiting ∧ (.client .refused ∉ G ∧ .server .refused ∉ G) ∧
    NetSample.start.run Toy.lib (G.flatMap StreamNetItem.calls) = .ok (m, T) ∧
    (∀ m ∈ serverMessages ServerSample.greeting (serverItems T), m.RoundTrip Toy.lib .default) ∧
    FairClient Toy.lib ServerSample.options (clientItems T) ∧ OrderlyServer (serverItems T) ∧
    (events (atClient G)).filterMap ClientEvent.told? =
      [.data (.other (ClientSample.str "d")), .status (.tagged (ClientSample.str "A") ⟨.bad, none, ClientSample.str "late"⟩),
       .data (.other (ClientSample.str "d"))] := by
  obtain ⟨n, G, h, hw, hs, hp⟩ := StreamDialogueSample.tls_remarks
  obtain ⟨h1, m, T, h2, h3, -, h4, h5⟩ := hs.hypotheses
  refine ⟨n, G, m, T, StreamNetSample.handshaken, h, hw, h1, h2, h3, h4, h5, ?_⟩
  rw [C69_rest Toy.lawful StreamNetSample.built (by decide) StreamNetSample.handshaken h h1 h2 h3 h4 h5 hw, hp]

end ImapFlow

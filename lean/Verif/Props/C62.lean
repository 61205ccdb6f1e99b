import Verif.Proofs.StreamDialogue
import Verif.Spec.StreamDialogueSamples

/-!
# C62: end to end on streams, dialogues stay in step and never hang

C52 and C53 for the users of two streams (`Spec/StreamNet.lean`), with or without TLS.  What the users get is read off
the events that `next` returns to them.  What they asked for is read off `T`, the record of the calls that the streams
and the users made on the client and on the server, with the results of these calls (by C50 there is always exactly one).
-/

namespace ImapFlow

variable {K : Type} {paired : K → K → Prop} {L : Lib} {tc ts : Option (Tls K)} {gc gs : HandleGenerator}
  {oc : ClientOptions} {os : ServerOptions} {gr : Greeting} {as : List StreamNetAct} {sn : StreamNet K}
  {G : List StreamNetItem} {n : Net} {T : List NItem}

/-- The user of the server gets what the client says, in order: commands, authenticate data and DONE. -/
theorem C62_heard (hL : L.Lawful) (hO : ServerOptions.Built L os) (hmax : 0 < os.maxCommandSize)
    (hh : Handshaken paired tc ts) (h : (StreamNet.new tc ts gc oc gs os gr).run L as = some (sn, G))
    (hr : .client .refused ∉ G ∧ .server .refused ∉ G)
    (hT : (Net.new gc oc gs os gr).run L (G.flatMap StreamNetItem.calls) = .ok (n, T))
    (hrt : ∀ m ∈ serverMessages gr (serverItems T), m.RoundTrip L oc)
    (hF : FairClient L os (clientItems T)) (hP : OrderlyServer (serverItems T)) :
    (events (atServer G)).filterMap ServerEvent.heard? <+: (ClientView.of (clientItems T)).said := by
  obtain ⟨-, -, h4, -⟩ := StreamNet.traced hL hO hh h hr hT
  obtain ⟨-, es⟩ := StreamNet.run_events h
  obtain ⟨D, fl, ht⟩ := (Net.run_linked hT).together hL hO hrt hmax hF hP (P := T) (Q := []) (by simp)
  rw [(Net.run_linked hT).events_heard h4 es]
  exact ⟨D, ht.core.said.symm⟩

/-- The user of the client gets the answers of the user of the server, in order and each as what it is, and the user of
the server is never more than one answer ahead. -/
theorem C62_answers (hL : L.Lawful) (hO : ServerOptions.Built L os) (hmax : 0 < os.maxCommandSize)
    (hh : Handshaken paired tc ts) (h : (StreamNet.new tc ts gc oc gs os gr).run L as = some (sn, G))
    (hr : .client .refused ∉ G ∧ .server .refused ∉ G)
    (hT : (Net.new gc oc gs os gr).run L (G.flatMap StreamNetItem.calls) = .ok (n, T))
    (hrt : ∀ m ∈ serverMessages gr (serverItems T), m.RoundTrip L oc)
    (hF : FairClient L os (clientItems T)) (hP : OrderlyServer (serverItems T)) :
    (events (atClient G)).filterMap ClientEvent.answer? <+: serverAnswers (serverItems T) ∧
    (serverAnswers (serverItems T)).length ≤ ((events (atClient G)).filterMap ClientEvent.answer?).length + 1 := by
  obtain ⟨-, h3, -, -⟩ := StreamNet.traced hL hO hh h hr hT
  obtain ⟨ec, -⟩ := StreamNet.run_events h
  obtain ⟨D, fl, ht⟩ := (Net.run_linked hT).together hL hO hrt hmax hF hP (P := T) (Q := []) (by simp)
  rw [(Net.run_linked hT).events_answers hL h3 ec]
  refine ⟨⟨_, ht.answers.symm⟩, ?_⟩
  rw [ht.answers, List.length_append]
  have : (flightAnswers fl).length ≤ 1 := by
    unfold flightAnswers
    split <;> simp
  omega

/-- `next` returns to the user of the client neither a rejected command nor a continuation request it did not wait for,
and to neither user an error of the client or of the server. -/
theorem C62_expected (hL : L.Lawful) (hO : ServerOptions.Built L os) (hmax : 0 < os.maxCommandSize)
    (hh : Handshaken paired tc ts) (h : (StreamNet.new tc ts gc oc gs os gr).run L as = some (sn, G))
    (hr : .client .refused ∉ G ∧ .server .refused ∉ G)
    (hT : (Net.new gc oc gs os gr).run L (G.flatMap StreamNetItem.calls) = .ok (n, T))
    (hrt : ∀ m ∈ serverMessages gr (serverItems T), m.RoundTrip L oc)
    (hF : FairClient L os (clientItems T)) (hP : OrderlyServer (serverItems T)) :
    (∀ hd cmd st, .commandRejected hd cmd st ∉ events (atClient G)) ∧
    (∀ q, .continuationRequestReceived q ∉ events (atClient G)) ∧
    (∀ e, .returned (.error (.state e)) ∉ atClient G) ∧ ∀ e, .returned (.error (.state e)) ∉ atServer G := by
  obtain ⟨-, h3, h4, -⟩ := StreamNet.traced hL hO hh h hr hT
  obtain ⟨ec, es⟩ := StreamNet.run_events h
  have hl := Net.run_linked hT
  obtain ⟨D, fl, ht⟩ := hl.together hL hO hrt hmax hF hP (P := T) (Q := []) (by simp)
  have key : ∀ e, e ∈ events (atClient G) → (∃ i ∈ clientItems T, i.result? = some (.ok e)) := by
    intro e he
    rw [ec, ← List.filterMap_filterMap, ← h3.results] at he
    obtain ⟨r, h5, h6⟩ := List.mem_filterMap.1 he
    obtain ⟨i, h7, h8⟩ := List.mem_filterMap.1 h5
    refine ⟨i, h7, ?_⟩
    rw [h8]
    cases r <;> simp [Except.toOption] at h6
    rw [h6]
  refine ⟨?_, ?_, ?_, ?_⟩
  · intro hd cmd st he
    obtain ⟨i, h7, h8⟩ := key _ he
    obtain ⟨v, hv⟩ := hl.client_guard hL h7
    cases i with
    | sent e => obtain ⟨-, hd, cmd, q, -, ⟨rfl, -⟩ | ⟨rfl, -⟩ | ⟨rfl, -⟩ | ⟨rfl, -⟩⟩ := hv <;> simp [CItem.result?, CItem.erase] at h8
    | received w e =>
      simp [CItem.result?, CItem.erase] at h8
      subst h8
      exact ht.expected _ h7
    | _ => simp [CItem.result?, CItem.erase] at h8
  · intro q he
    obtain ⟨i, h7, h8⟩ := key _ he
    obtain ⟨v, hv⟩ := hl.client_guard hL h7
    cases i with
    | sent e => obtain ⟨-, hd, cmd, q, -, ⟨rfl, -⟩ | ⟨rfl, -⟩ | ⟨rfl, -⟩ | ⟨rfl, -⟩⟩ := hv <;> simp [CItem.result?, CItem.erase] at h8
    | received w e =>
      simp [CItem.result?, CItem.erase] at h8
      subst h8
      exact ht.expected _ h7
    | _ => simp [CItem.result?, CItem.erase] at h8
  · have k1 := fun e => h3.no_errors (fun e hm => ht.expected _ hm) (e := e)
    obtain ⟨⟨cs, p1⟩, -⟩ := StreamNet.run_parts h
    rw [← (StreamNet.clientPart_spec G).1] at k1 ⊢
    exact fun e hm => k1 e (FullStream.run_state_error p1 hm)
  · have k2 := fun e => h4.no_errors ht.accepted (e := e)
    obtain ⟨-, ss, p2⟩ := StreamNet.run_parts h
    rw [← (StreamNet.serverPart_spec G).1] at k2 ⊢
    exact fun e hm => k2 e (FullStream.run_state_error p2 hm)

/-- If both users wait in `next` and nothing is on the way, both got everything, and both sides agree which of the users
has to act. -/
theorem C62_turn (hL : L.Lawful) (hO : ServerOptions.Built L os) (hmax : 0 < os.maxCommandSize)
    (hh : Handshaken paired tc ts) (h : (StreamNet.new tc ts gc oc gs os gr).run L as = some (sn, G))
    (hr : .client .refused ∉ G ∧ .server .refused ∉ G)
    (hT : (Net.new gc oc gs os gr).run L (G.flatMap StreamNetItem.calls) = .ok (n, T))
    (hrt : ∀ m ∈ serverMessages gr (serverItems T), m.RoundTrip L oc)
    (hF : FairClient L os (clientItems T)) (hP : OrderlyServer (serverItems T)) (hw : sn.Waiting) :
    (events (atServer G)).filterMap ServerEvent.heard? = (ClientView.of (clientItems T)).said ∧
    (events (atClient G)).filterMap ClientEvent.answer? = serverAnswers (serverItems T) ∧
    Turn (ClientView.of (clientItems T)) (serverPhase (serverItems T)) (serverDialogue (serverItems T)) := by
  obtain ⟨-, h3, h4, -⟩ := StreamNet.traced hL hO hh h hr hT
  obtain ⟨ec, es⟩ := StreamNet.run_events h
  have hl := Net.run_linked hT
  obtain ⟨⟨A, hA⟩, ⟨B, hB⟩, c1, c2⟩ := StreamNet.waiting_starved hL hO hh h hr hT hrt hw
  rw [hl.events_heard h4 es, hl.events_answers hL h3 ec]
  exact hl.turn_starved hL hO hrt hmax hF hP hA hB c1 c2

/-- AUTHENTICATE, an accepted and a rejected IDLE between other commands, with TLS; then everything is done. -/
example : ∃ n G m T, Handshaken (· = ·) (some (StreamNetSample.tls 5 0)) (some (StreamNetSample.tls 0 5)) ∧
    StreamNetSample.start.run Toy.lib (StreamDialogueSample.play StreamNetSample.start StreamDialogueSample.script) =
      some (n, G) ∧ n.Waiting ∧ (.client .refused ∉ G ∧ .server .refused ∉ G) ∧
    NetSample.start.run Toy.lib (G.flatMap StreamNetItem.calls) = .ok (m, T) ∧
    (∀ m ∈ serverMessages ServerSample.greeting (serverItems T), m.RoundTrip Toy.lib .default) ∧
    FairClient Toy.lib ServerSample.options (clientItems T) ∧ OrderlyServer (serverItems T) ∧
    StreamDialogueSample.Played G := by
  obtain ⟨n, G, h, hw, hs, hp⟩ := StreamDialogueSample.tls_run
  obtain ⟨h1, m, T, h2, h3, -, h4, h5⟩ := hs.hypotheses
  exact ⟨n, G, m, T, StreamNetSample.handshaken, h, hw, h1, h2, h3, h4, h5, hp⟩

/-- The same without TLS. -/
example : ∃ n G m T, StreamNetSample.plainStart.run Toy.lib
      (StreamDialogueSample.play StreamNetSample.plainStart StreamDialogueSample.script) = some (n, G) ∧ n.Waiting ∧
    (.client .refused ∉ G ∧ .server .refused ∉ G) ∧
    NetSample.start.run Toy.lib (G.flatMap StreamNetItem.calls) = .ok (m, T) ∧
    (∀ m ∈ serverMessages ServerSample.greeting (serverItems T), m.RoundTrip Toy.lib .default) ∧
    FairClient Toy.lib ServerSample.options (clientItems T) ∧ OrderlyServer (serverItems T) ∧
    StreamDialogueSample.Played G := by
  obtain ⟨n, G, h, hw, hs, hp⟩ := StreamDialogueSample.plain_run
  obtain ⟨h1, m, T, h2, h3, -, h4, h5⟩ := hs.hypotheses
  exact ⟨n, G, m, T, h, hw, h1, h2, h3, h4, h5, hp⟩

end ImapFlow

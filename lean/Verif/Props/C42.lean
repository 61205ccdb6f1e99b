import Verif.Proofs.ProxyMessages
import Verif.Proofs.ProxyPanic
import Verif.Spec.ProxySamples

/-!
# C42: the proxy forwards responses in order, changed only as announced

False in one situation: if the server ends an IDLE that it had accepted, the proxy panics (see C40) and the
status is lost.  In all other histories, and for all other responses, the claim holds.
-/

namespace ImapFlow

variable {K : Type} {L : Lib} {tc ts : Option (Tls K)} {gc gs : HandleGenerator} {as : List ProxyAct} {p : Proxy K}
  {T : List ProxyItem}

/-- The claim is false if the proxy panics. -/
theorem C42_false : ¬ ∀ (L : Lib) (_ : L.Lawful) (_ : L.Proxyable) (gc gs : HandleGenerator) (as : List ProxyAct)
    (p : Proxy Nat) (T : List ProxyItem), (Proxy.start none none gc).run L gs as = some (p, T) →
    forwardedResponses T = (streamEvents (serverSide T)).filterMap ClientEvent.forwarded := by
  intro H
  obtain ⟨T, h, -⟩ := ProxySample.run_broken
  have h1 := H _ Toy.lawful Toy.proxyable _ _ _ _ _ h
  have h2 : (ProxySample.run ProxySample.broken).map (fun x => decide (forwardedResponses x.2 =
      (streamEvents (serverSide x.2)).filterMap ClientEvent.forwarded)) = some false := by decide +kernel
  rw [show ProxySample.run ProxySample.broken = some (.dead, T) from h] at h2
  simp only [Option.map_some, Option.some.injEq, decide_eq_false_iff_not] at h2
  exact h2 h1

/-- Unless the proxy panicked, the responses enqueued for the client are the responses received from the server,
in order, changed by the restriction of capabilities and for rejected commands (`ClientEvent.forwarded`). -/
theorem C42_partial (hL : L.Lawful) (hP : L.Proxyable) (h : (Proxy.start tc ts gc).run L gs as = some (p, T))
    (hp : p ≠ .dead) : forwardedResponses T = (streamEvents (serverSide T)).filterMap ClientEvent.forwarded :=
  (Proxy.run_ledger hL hP h hp).responses

/-- The calls on the server side of the proxy are exactly those that belong to the events, in order. -/
theorem C42_calls (hL : L.Lawful) (hP : L.Proxyable) (h : (Proxy.start tc ts gc).run L gs as = some (p, T))
    (hp : p ≠ .dead) : madeAnswers T = dueAnswers T :=
  (Proxy.run_ledger hL hP h hp).answers

/-- Even if the proxy panicked, it has made no other calls on its server side than those that belong to the events, in order. -/
theorem C42_calls_always (hL : L.Lawful) (hP : L.Proxyable) (h : (Proxy.start tc ts gc).run L gs as = some (p, T)) :
    madeAnswers T <+: dueAnswers T :=
  Proxy.run_answers hL hP h

/-- A proxy that panicked (`ProxySample.run_broken`): the status of the IDLE is not passed on. -/
example : ∃ T, ProxySample.run ProxySample.broken = some (.dead, T) ∧ (dueAnswers T).length = (madeAnswers T).length + 1 := by
  obtain ⟨T, h, -⟩ := ProxySample.run_broken
  have h2 : (ProxySample.run ProxySample.broken).map (fun x => decide ((dueAnswers x.2).length = (madeAnswers x.2).length + 1)) =
      some true := by decide +kernel
  rw [show ProxySample.run ProxySample.broken = some (.dead, T) from h] at h2
  simp only [Option.map_some, Option.some.injEq, decide_eq_true_eq] at h2
  exact ⟨T, h, h2⟩

/-- In the worst case the last response is missing: the status of an IDLE that the server had accepted. -/
theorem C42_panic (hL : L.Lawful) (hP : L.Proxyable) (h : (Proxy.start tc ts gc).run L gs as = some (p, T)) :
    forwardedResponses T = (streamEvents (serverSide T)).filterMap ClientEvent.forwarded ∨
    BrokenIdle T ∧ ∃ hd st, (streamEvents (serverSide T)).getLast? = some (.idleRejected hd st) ∧
      forwardedResponses T ++ [.status st] = (streamEvents (serverSide T)).filterMap ClientEvent.forwarded := by
  by_cases hp : p = .dead
  · subst hp
    obtain ⟨c, s, o, gr, V, U, hi⟩ := Proxy.run_inv hL hP h
    rcases hi.cause with ⟨-, -, -, hr⟩ | ⟨hb, -, -, es, hd, st, he, hr⟩ <;> unfold serverEvents at *
    · exact .inl hr
    · refine .inr ⟨hb, hd, st, ?_, ?_⟩
      · rw [he]; simp
      · rw [he, hr, List.filterMap_append]; rfl
  · exact .inl (C42_partial hL hP h hp)

/-- On the wire to the client: the bytes handed out for the client are the encodings of the first
messages of: the greeting of the server with restricted capabilities, and then the forwarded responses in
order, mixed with answers of the proxy itself to announced literals. -/
theorem C42_wire (hL : L.Lawful) (hP : L.Proxyable) (h : (Proxy.start tc ts gc).run L gs as = some (p, T)) :
    streamOutput (clientSide T) = [] ∨
    ∃ gr ms n, (streamEvents (serverSide T)).head? = some (.greetingReceived gr) ∧
      ms.filterMap ServerMessage.user? = forwardedResponses T ∧
      (∀ m ∈ ms, m.user? = none → ∃ r, m = .response none r ∧ OwnReply r) ∧ n ≤ ms.length + 1 ∧
      streamOutput (clientSide T) =
        ((.greeting gr.restrict :: ms).take n).flatMap (ServerMessage.bytes L) := by
  rcases Proxy.run_client hL hP h with ⟨h1, -⟩ | ⟨o, gr, c, V, ho, ⟨es, hes⟩, hl⟩
  · left; rw [clientSide_of_full h1]; rfl
  · right
    have hgr : (streamEvents (serverSide T)).head? = some (.greetingReceived gr) := by rw [hes]; rfl
    obtain ⟨ms, n, hm⟩ := Proxy.run_messages hL hP h hgr
    exact ⟨gr, ms, n, hgr, hm⟩

/-- On the wire from the server: there is a history of a client (see C07-C18) that was given what the stream
delivered and reported these events. -/
theorem C42_source (hL : L.Lawful) (hP : L.Proxyable) (h : (Proxy.start tc ts gc).run L gs as = some (p, T)) :
    ∃ ops c U, (Client.new gc .default).trace L ops = .ok (c, U) ∧
      U.filterMap CItem.event? = streamEvents (serverSide T) ∧ clientGiven U = streamDelivered (serverSide T) := by
  obtain ⟨s, U, hl⟩ := Proxy.run_server hL hP h
  obtain ⟨ops, ht⟩ := hl.trace
  exact ⟨ops, _, U, ht, by rw [hl.events, streamPart_serverFull], hl.bytes.1⟩

/-- The sockets of connections without TLS: the client of `C42_source` was given what was read from the server, and
what was handed out for the client is written or waits in the buffer. -/
theorem C42_socket (hL : L.Lawful) (hP : L.Proxyable)
    (h : (Proxy.start (K := K) none none gc).run L gs as = some (p, T)) :
    streamDelivered (serverSide T) = streamRead (serverSide T) ∧
    ∃ waiting, streamWrote (clientSide T) ++ waiting = streamOutput (clientSide T) :=
  ⟨(Proxy.run_server_plain hL hP h).1, (Proxy.run_client_plain hL hP h).2⟩

/-- A conversation with capabilities, a rejected literal with an alert, AUTHENTICATE and IDLE. -/
example : ∃ p T, ProxySample.run ProxySample.talk = some (p, T) ∧ p ≠ .dead ∧
    (streamEvents (serverSide T)).filterMap ClientEvent.forwarded = ProxySample.talkResponses := by
  obtain ⟨p, T, h, h1, h2, -⟩ := ProxySample.run_talk
  exact ⟨p, T, h, h1, by rw [← C42_partial Toy.lawful Toy.proxyable h h1, h2]⟩

/-- The texts of the proxy that occur in these statements. -/
theorem C42_texts : commandRejectedText = ascii "proxy: Command rejected by server" ∧
    literalAcceptText = ascii "proxy: Literal accepted by proxy" ∧ literalRejectText = ascii "proxy: Literal rejected by proxy" := by
  decide +kernel

end ImapFlow

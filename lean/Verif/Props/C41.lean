import Verif.Proofs.ProxyWire
import Verif.Props.C12
import Verif.Spec.Net
import Verif.Spec.ProxySamples

/-!
# C41: the proxy forwards commands unchanged, in order and exactly once
-/

namespace ImapFlow

variable {K : Type} {L : Lib} {tc ts : Option (Tls K)} {gc gs : HandleGenerator} {as : List ProxyAct} {p : Proxy K}
  {T : List ProxyItem}

theorem ServerEvent.passed_command (e : ServerEvent) : e.passed.bind ClientOp.command? = e.command? := by
  cases e <;> rfl

theorem receivedCommands_eq (T : List ProxyItem) : receivedCommands T = (dueCalls T).filterMap ClientOp.command? := by
  unfold receivedCommands dueCalls
  rw [List.filterMap_filterMap]
  exact congrArg (fun f => List.filterMap f _) (funext fun e => (ServerEvent.passed_command e).symm)

theorem forwardedCommands_eq (T : List ProxyItem) : forwardedCommands T = (madeCalls T).filterMap ClientOp.command? := rfl

/-- At any time, even if the proxy panicked, the commands enqueued for the server are the commands received from
the client. -/
theorem C41_commands (hL : L.Lawful) (hP : L.Proxyable) (h : (Proxy.start tc ts gc).run L gs as = some (p, T)) :
    forwardedCommands T = receivedCommands T := by
  rw [receivedCommands_eq, forwardedCommands_eq]
  by_cases hp : p = .dead
  · subst hp
    obtain ⟨c, s, o, gr, V, U, hi⟩ := Proxy.run_inv hL hP h
    rcases hi.cause with ⟨-, -, ⟨d, hd⟩, -⟩ | ⟨-, -, hd, -⟩
    · rw [hd, List.filterMap_append]
      simp [ClientOp.command?]
    · rw [hd]
  · rw [(Proxy.run_ledger hL hP h hp).calls]

/-- Also authenticate data and DONE are passed on, in order with the commands; nothing else is. -/
theorem C41_everything (hL : L.Lawful) (hP : L.Proxyable) (h : (Proxy.start tc ts gc).run L gs as = some (p, T))
    (hp : p ≠ .dead) : madeCalls T = dueCalls T :=
  (Proxy.run_ledger hL hP h hp).calls

/-- In the worst case the last call is missing: authenticate data that the server had not asked for (the proxy panicked). -/
theorem C41_panic (hL : L.Lawful) (hP : L.Proxyable) (h : (Proxy.start tc ts gc).run L gs as = some (p, T)) :
    madeCalls T = dueCalls T ∨ UnaskedData T ∧ ∃ d, dueCalls T = madeCalls T ++ [.setAuthenticateData d] := by
  by_cases hp : p = .dead
  · subst hp
    obtain ⟨c, s, o, gr, V, U, hi⟩ := Proxy.run_inv hL hP h
    rcases hi.cause with ⟨hu, -, hd, -⟩ | ⟨-, -, hd, -⟩
    · exact .inr ⟨hu, hd⟩
    · exact .inl hd
  · exact .inl (C41_everything hL hP h hp)

/-- On the wire to the server: there is a history of a client (see C12-C18) with these commands that was given what
the stream delivered and whose output is what the stream got for the server. -/
theorem C41_wire (hL : L.Lawful) (hP : L.Proxyable) (h : (Proxy.start tc ts gc).run L gs as = some (p, T)) :
    ∃ ops c U, (Client.new gc .default).trace L ops = .ok (c, U) ∧
      (clientEnqueued U).map Prod.snd = receivedCommands T ∧ clientGiven U = streamDelivered (serverSide T) ∧
      clientOutput U = streamOutput (serverSide T) := by
  obtain ⟨s, U, hl⟩ := Proxy.run_server hL hP h
  obtain ⟨ops, ht⟩ := hl.trace
  exact ⟨ops, _, U, ht, by rw [hl.enqueued, streamPart_serverFull, ← C41_commands hL hP h]; rfl, hl.bytes⟩

/-- On the wire from the client: there is a history of a server (see C02-C06, C24) that received these commands from
the bytes that the stream delivered. -/
theorem C41_source (hL : L.Lawful) (hP : L.Proxyable) (h : (Proxy.start tc ts gc).run L gs as = some (p, T)) :
    receivedCommands T = [] ∨ ∃ o gr ops s V, proxyServerOptions L = .ok o ∧
      (Server.new gs o gr).trace L ops = .ok (s, V) ∧
      (V.filterMap SItem.event?).filterMap ServerEvent.command? = receivedCommands T ∧
      serverGiven V = streamDelivered (clientSide T) := by
  rcases Proxy.run_client hL hP h with ⟨h1, -⟩ | ⟨o, gr, c, V, ho, -, hl⟩
  · left; rw [receivedCommands, clientSide_of_full h1]; rfl
  · right
    obtain ⟨ops, ht⟩ := hl.trace
    exact ⟨o, _, ops, _, V, ho, ht, by rw [hl.events, streamPart_clientFull]; rfl, hl.bytes.1⟩

/-- If the client uses neither AUTHENTICATE nor IDLE and the server rejects no literal, the bytes handed out for the
server are a beginning of the encodings of the received commands. -/
theorem C41_bytes (hL : L.Lawful) (hP : L.Proxyable) (h : (Proxy.start tc ts gc).run L gs as = some (p, T))
    (hreg : ∀ c ∈ receivedCommands T, c.isRegular = true)
    (hrej : ∀ hd cmd st, .commandRejected hd cmd st ∉ streamEvents (serverSide T)) :
    streamOutput (serverSide T) <+: (receivedCommands T).flatMap fun c => wire (L.encodeCommand c) := by
  obtain ⟨s, U, hl⟩ := Proxy.run_server hL hP h
  obtain ⟨ops, ht⟩ := hl.trace
  have he : (clientEnqueued U).map Prod.snd = receivedCommands T := by
    rw [hl.enqueued, streamPart_serverFull, ← C41_commands hL hP h]; rfl
  have h1 := C12_output_prefix hL ht
    (fun x hx => hreg x.2 (by rw [← he]; exact List.mem_map.mpr ⟨x, hx, rfl⟩))
    (fun hd cmd st hx => by
      refine hrej hd cmd st ?_
      rw [← streamPart_serverFull, ← hl.events]
      obtain ⟨i, hi, hx⟩ := List.mem_filterMap.mp hx
      refine List.mem_filterMap.mpr ⟨i, hi, ?_⟩
      cases i <;> simp_all [CItem.terminal?, CItem.event?])
  refine (hl.bytes.2 ▸ h1).trans ?_
  rw [← he, List.flatMap_map]
  exact List.prefix_rfl

/-- The sockets of connections without TLS: the server of `C41_source` was given what was read from the client, the
client of `C41_wire` was given what was read from the server, and its output is written or waits in the buffer. -/
theorem C41_socket (hL : L.Lawful) (hP : L.Proxyable)
    (h : (Proxy.start (K := K) none none gc).run L gs as = some (p, T)) :
    streamDelivered (clientSide T) = streamRead (clientSide T) ∧ streamDelivered (serverSide T) = streamRead (serverSide T) ∧
    ∃ waiting, streamWrote (serverSide T) ++ waiting = streamOutput (serverSide T) :=
  ⟨(Proxy.run_client_plain hL hP h).1, Proxy.run_server_plain hL hP h⟩

/-- `C41_bytes` for the socket of a connection without TLS. -/
theorem C41_socket_bytes (hL : L.Lawful) (hP : L.Proxyable) (h : (Proxy.start tc none gc).run L gs as = some (p, T))
    (hreg : ∀ c ∈ receivedCommands T, c.isRegular = true)
    (hrej : ∀ hd cmd st, .commandRejected hd cmd st ∉ streamEvents (serverSide T)) :
    streamWrote (serverSide T) <+: (receivedCommands T).flatMap fun c => wire (L.encodeCommand c) := by
  obtain ⟨-, w, hw⟩ := Proxy.run_server_plain hL hP h
  exact (List.prefix_append _ w).trans (hw ▸ C41_bytes hL hP h hreg hrej)

/-- A conversation with a literal, AUTHENTICATE and IDLE. -/
example : ∃ p T, ProxySample.run ProxySample.talk = some (p, T) ∧ receivedCommands T = ProxySample.talkCommands ∧
    p ≠ .dead := by
  obtain ⟨p, T, h, h1, -, h2, -⟩ := ProxySample.run_talk
  exact ⟨p, T, h, by rw [← C41_commands Toy.lawful Toy.proxyable h, h2], h1⟩

/-- A client that sends authenticate data too early: the last call is missing. -/
example : ∃ T, ProxySample.run ProxySample.early = some (.dead, T) ∧
    dueCalls T = madeCalls T ++ [.setAuthenticateData (.continue (ClientSample.str "pw"))] := by
  have h : (ProxySample.run ProxySample.early).map (fun x => (ProxySample.stage x.1, decide (dueCalls x.2 = madeCalls x.2 ++
      [.setAuthenticateData (.continue (ClientSample.str "pw"))]))) = some (.dead, true) := by decide +kernel
  obtain ⟨⟨p, T⟩, h1, h2⟩ := ProxySample.of_map h
  simp only [Prod.mk.injEq, decide_eq_true_eq] at h2
  cases p with
  | dead => exact ⟨T, h1, h2.2⟩
  | _ => cases h2.1

/-- A conversation that meets the hypotheses of `C41_bytes`; the second command is half written. -/
example : ∃ p T, ProxySample.run ProxySample.plain = some (p, T) ∧ (∀ c ∈ receivedCommands T, c.isRegular = true) ∧
    (∀ hd cmd st, .commandRejected hd cmd st ∉ streamEvents (serverSide T)) ∧
    streamWrote (serverSide T) = ClientSample.ln "A Cz" ++ ClientSample.str "B " := by
  obtain ⟨p, T, h, h1, h2, -, h3⟩ := ProxySample.run_plain
  exact ⟨p, T, h, by rw [h1]; decide, h2, h3⟩

end ImapFlow

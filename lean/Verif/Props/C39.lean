import Verif.Props.C41
import Verif.Props.C42

/-!
# C39: the proxy never forwards an unsupported capability (false; what is true)
-/

namespace ImapFlow

variable {K : Type} {L : Lib} {tc ts : Option (Tls K)} {gc gs : HandleGenerator} {as : List ProxyAct} {p : Proxy K}
  {T : List ProxyItem}

/-- The claim is false: the capabilities in the answer to AUTHENTICATE are not filtered
(`/repo/proxy/src/proxy.rs:390-428`). -/
theorem C39_false : ¬ ∀ (L : Lib) (_ : L.Lawful) (_ : L.Proxyable) (gc gs : HandleGenerator) (as : List ProxyAct)
    (p : Proxy Nat) (T : List ProxyItem), (Proxy.start none none gc).run L gs as = some (p, T) →
    ∀ r ∈ forwardedResponses T, ∀ c ∈ r.capabilities, c.Supported := by
  intro H
  obtain ⟨p, T, h, -, h2, -⟩ := ProxySample.run_talk
  have h3 := H _ Toy.lawful Toy.proxyable _ _ _ _ _ h
  rw [h2] at h3
  revert h3
  decide +kernel

/-- The unsupported capability reaches the wire. -/
theorem C39_false_wire : ∃ p T, (Proxy.start (K := Nat) none none ClientSample.g).run Toy.lib ProxySample.gs ProxySample.talk = some (p, T) ∧
    ClientSample.ln "oB [CRS]done" <:+: streamWrote (clientSide T) := by
  obtain ⟨p, T, h, -, -, -, h2, -⟩ := ProxySample.run_talk
  refine ⟨p, T, h, ?_⟩
  rw [h2]
  exact ⟨_, _, (List.append_assoc _ _ _).symm⟩

/-- Responses with an unsupported capability are answers to AUTHENTICATE or IDLE, as they were received.
All other responses, and the greeting, are filtered. -/
theorem C39_partial (hL : L.Lawful) (hP : L.Proxyable) (h : (Proxy.start tc ts gc).run L gs as = some (p, T)) :
    ∀ r ∈ forwardedResponses T, (∀ c ∈ r.capabilities, c.Supported) ∨
      ∃ e ∈ streamEvents (serverSide T), e.Unfiltered ∧ e.forwarded = some r := by
  intro r hr
  have hr' : r ∈ (streamEvents (serverSide T)).filterMap ClientEvent.forwarded := by
    rcases C42_panic hL hP h with he | ⟨-, hd, st, -, he⟩
    · rw [← he]; exact hr
    · rw [← he]; exact List.mem_append_left _ hr
  obtain ⟨e, he, hf⟩ := List.mem_filterMap.mp hr'
  by_cases hu : e.Unfiltered
  · exact .inr ⟨e, he, hu, hf⟩
  · exact .inl (ClientEvent.forwarded_supported hf hu)

/-- If the client uses neither AUTHENTICATE nor IDLE then the claim holds for all responses. -/
theorem C39_regular (hL : L.Lawful) (hP : L.Proxyable) (h : (Proxy.start tc ts gc).run L gs as = some (p, T))
    (hreg : ∀ c ∈ receivedCommands T, c.isRegular = true) :
    ∀ r ∈ forwardedResponses T, ∀ c ∈ r.capabilities, c.Supported := by
  intro r hr
  rcases C39_partial hL hP h r hr with hs | ⟨e, he, hu, -⟩
  · exact hs
  · exfalso
    obtain ⟨s, U, hl⟩ := Proxy.run_server hL hP h
    obtain ⟨ops, ht⟩ := hl.trace
    obtain ⟨x, hx, hn⟩ := unfiltered_command hL ht (by rw [hl.events, streamPart_serverFull]; exact he) hu
    have : x.2 ∈ receivedCommands T := by
      rw [← C41_commands hL hP h]
      show x.2 ∈ (streamCalls (serverSide T)).filterMap ClientOp.command?
      rw [← streamPart_serverFull, ← hl.enqueued]
      exact List.mem_map.mpr ⟨x, hx, rfl⟩
    rw [hreg _ this] at hn
    cases hn

/-- The claim on the wire: everything handed out for the client is the encoding of a sequence of messages, and the
capabilities in them are supported, except in answers to AUTHENTICATE and IDLE.  In particular the greeting and
the replies of the proxy itself are fine. -/
theorem C39_wire_partial (hL : L.Lawful) (hP : L.Proxyable) (h : (Proxy.start tc ts gc).run L gs as = some (p, T)) :
    ∃ ms : List ServerMessage, streamOutput (clientSide T) = ms.flatMap (ServerMessage.bytes L) ∧
      ∀ m ∈ ms, (∀ c ∈ m.capabilities, c.Supported) ∨
        ∃ e ∈ streamEvents (serverSide T), e.Unfiltered ∧ ∃ r, e.forwarded = some r ∧ m.user? = some r := by
  rcases C42_wire hL hP h with h0 | ⟨gr, ms, n, -, h1, h2, -, h4⟩
  · exact ⟨[], by rw [h0]; rfl, nofun⟩
  · refine ⟨_, h4, fun m hm => ?_⟩
    rcases List.mem_cons.mp (List.mem_of_mem_take hm) with rfl | hm
    · exact .inl (restrict_code_supported gr.code)
    · cases hu : m.user? with
      | none =>
        obtain ⟨r, rfl, ho⟩ := h2 m hm hu
        left
        show ∀ c ∈ r.capabilities, _
        rw [ho.capabilities]
        nofun
      | some r =>
        have hr : r ∈ forwardedResponses T := h1 ▸ List.mem_filterMap.mpr ⟨m, hm, hu⟩
        rcases C39_partial hL hP h r hr with hs | ⟨e, he, hu', hf⟩
        · left
          cases m with
          | greeting g => cases hu
          | response hd r' =>
            cases hd with
            | none => cases hu
            | some hd => cases hu; exact hs
        · exact .inr ⟨e, he, hu', r, hf, rfl⟩

/-- What is written to a socket without TLS is a beginning of it. -/
theorem C39_socket_partial (hL : L.Lawful) (hP : L.Proxyable) (h : (Proxy.start none ts gc).run L gs as = some (p, T)) :
    ∃ ms : List ServerMessage, streamWrote (clientSide T) <+: ms.flatMap (ServerMessage.bytes L) ∧
      ∀ m ∈ ms, (∀ c ∈ m.capabilities, c.Supported) ∨
        ∃ e ∈ streamEvents (serverSide T), e.Unfiltered ∧ ∃ r, e.forwarded = some r ∧ m.user? = some r := by
  obtain ⟨ms, h1, h2⟩ := C39_wire_partial hL hP h
  obtain ⟨-, w, hw⟩ := Proxy.run_client_plain hL hP h
  exact ⟨ms, ⟨w, hw.trans h1⟩, h2⟩

/-- A conversation in which capabilities are forwarded: those in the data are restricted. -/
example : ∃ p T, ProxySample.run ProxySample.talk = some (p, T) ∧
    .data (.capability ⟨.imap4Rev1, [.idle, .auth .plain]⟩) ∈ forwardedResponses T := by
  obtain ⟨p, T, h, -, h2, -⟩ := ProxySample.run_talk
  exact ⟨p, T, h, by rw [h2]; exact List.mem_cons_self⟩

/-- A conversation that meets the hypotheses of `C39_regular`. -/
example : ∃ p T, ProxySample.run ProxySample.plain = some (p, T) ∧
    (∀ c ∈ receivedCommands T, c.isRegular = true) ∧ receivedCommands T ≠ [] ∧
    .data (.capability ⟨.imap4Rev1, [.idle]⟩) ∈ forwardedResponses T := by
  obtain ⟨p, T, h, h1, -, h2, -⟩ := ProxySample.run_plain
  exact ⟨p, T, h, by rw [h1]; decide, by rw [h1]; decide, by rw [h2]; decide⟩

end ImapFlow

import Verif.Proofs.ProxyWire
import Verif.Proofs.NoFlush
import Verif.Props.C41
import Verif.Props.C48
import Verif.Spec.ProxyTlsSamples

/-!
# C55: with TLS the proxy moves exactly the plaintext

C39 to C42, C45 and C46 speak about what the streams of the proxy deliver to its server and its client and what these
hand out, for any TLS configuration of the two connections.  Here: how this is related to the sockets.
-/

namespace ImapFlow

variable {K : Type} {L : Lib} {tc ts : Option (Tls K)} {gc gs : HandleGenerator} {as : List ProxyAct} {p : Proxy K}
  {T : List ProxyItem} {paired : K → K → Prop}

/-- What is delivered is the plaintext of what was read from the client, and TLS does not fail. -/
theorem C55_client_read (hL : L.Lawful) (hP : L.Proxyable) (htls : Connected paired tc)
    (h : (Proxy.start tc ts gc).run L gs as = some (p, T)) {plain : Bytes}
    (hp : HoldsPlain tc (streamRead (clientSide T)) plain) :
    streamDelivered (clientSide T) = plain ∧ .clientTls .hung ∉ T ∧ .clientTls .broken ∉ T := by
  rcases Proxy.run_client hL hP h with ⟨h1, -⟩ | ⟨o, gr, c, V, -, -, hl⟩
  · rw [clientSide_of_full h1] at hp ⊢
    obtain ⟨tls', hf⟩ := hp.feeds
    refine ⟨(hf.nothing htls.receiver).2.symm, fun hm => ?_, fun hm => ?_⟩
    · have := mem_clientFull.2.2.2 hm; rw [h1] at this; cases this
    · have := mem_clientFull.2.1.2 hm; rw [h1] at this; cases this
  · obtain ⟨as', hr⟩ := hl.run
    have h2 := FullStream.new_read htls hr hl.alive (plain := plain) (by rw [streamPart_clientFull]; exact hp)
    rw [streamPart_clientFull] at h2
    exact ⟨h2.1, fun hm => h2.2.1 (mem_clientFull.2.2.2 hm), fun hm => h2.2.2 (mem_clientFull.2.1.2 hm)⟩

/-- The same for the server. -/
theorem C55_server_read (hL : L.Lawful) (hP : L.Proxyable) (htls : Connected paired ts)
    (h : (Proxy.start tc ts gc).run L gs as = some (p, T)) {plain : Bytes}
    (hp : HoldsPlain ts (streamRead (serverSide T)) plain) :
    streamDelivered (serverSide T) = plain ∧ .serverTls .hung ∉ T ∧ .serverTls .broken ∉ T := by
  obtain ⟨s, U, hl⟩ := Proxy.run_server hL hP h
  obtain ⟨as', hr⟩ := hl.run
  have h2 := FullStream.new_read htls hr hl.alive (plain := plain) (by rw [streamPart_serverFull]; exact hp)
  rw [streamPart_serverFull] at h2
  exact ⟨h2.1, fun hm => h2.2.1 (mem_serverFull.2.2.2 hm), fun hm => h2.2.2 (mem_serverFull.2.1.2 hm)⟩

/-- What was written to the client, and what waits in the write buffer, is what was handed out for the client. -/
theorem C55_client_written (hL : L.Lawful) (hP : L.Proxyable) (htls : Connected paired tc)
    (h : (Proxy.start tc ts gc).run L gs as = some (p, T)) (hr : .clientTls .refused ∉ T) :
    ∃ waiting, Sealed paired tc (streamWrote (clientSide T) ++ waiting) (streamOutput (clientSide T)) := by
  rcases Proxy.run_client hL hP h with ⟨h1, -⟩ | ⟨o, gr, c, V, -, -, hl⟩
  · rw [clientSide_of_full h1]
    refine ⟨[], ?_⟩
    cases tc with
    | none => rfl
    | some t => exact fun kr hk => ⟨[], kr, .nil _, rfl⟩
  · obtain ⟨as', hrun⟩ := hl.run
    have h2 := (FullStream.new_wrote htls hrun fun hm => hr (mem_clientFull.1.1 hm)).1
    rw [streamPart_clientFull] at h2
    exact ⟨_, h2⟩

/-- The same for the server. -/
theorem C55_server_written (hL : L.Lawful) (hP : L.Proxyable) (htls : Connected paired ts)
    (h : (Proxy.start tc ts gc).run L gs as = some (p, T)) (hr : .serverTls .refused ∉ T) :
    ∃ waiting, Sealed paired ts (streamWrote (serverSide T) ++ waiting) (streamOutput (serverSide T)) := by
  obtain ⟨s, U, hl⟩ := Proxy.run_server hL hP h
  obtain ⟨as', hrun⟩ := hl.run
  have h2 := (FullStream.new_wrote htls hrun fun hm => hr (mem_serverFull.1.1 hm)).1
  rw [streamPart_serverFull] at h2
  exact ⟨_, h2⟩

/-- A connection refuses plaintext only if more than its limit is handed out at once. -/
theorem C55_accepted (hL : L.Lawful) (hP : L.Proxyable) (h : (Proxy.start tc ts gc).run L gs as = some (p, T)) :
    (Connected paired tc → .clientTls .refused ∈ T →
      ∃ t b, tc = some t ∧ t.limit < b.length ∧ .poll (.error (.io (.output b))) ∈ clientSide T) ∧
    (Connected paired ts → .serverTls .refused ∈ T →
      ∃ t b, ts = some t ∧ t.limit < b.length ∧ .poll (.error (.io (.output b))) ∈ serverSide T) := by
  refine ⟨fun htls hm => ?_, fun htls hm => ?_⟩
  · replace hm := mem_clientFull.1.2 hm
    rcases Proxy.run_client hL hP h with ⟨h1, -⟩ | ⟨o, gr, c, V, -, -, hl⟩
    · rw [h1] at hm; cases hm
    · obtain ⟨as', hr⟩ := hl.run
      cases tc with
      | none => exact (FullStream.new_unrefused hr hm).elim
      | some t =>
        obtain ⟨b, h1, h2⟩ := (FullStream.run_too_long hr (t := t) rfl (by rw [FullStream.new_ctl]; nofun)
          (htls t rfl).2.1).1 htls.sender hm
        rw [streamPart_clientFull] at h2
        exact ⟨t, b, rfl, h1, h2⟩
  · replace hm := mem_serverFull.1.2 hm
    obtain ⟨s, U, hl⟩ := Proxy.run_server hL hP h
    obtain ⟨as', hr⟩ := hl.run
    cases ts with
    | none => exact (FullStream.new_unrefused hr hm).elim
    | some t =>
      obtain ⟨b, h1, h2⟩ := (FullStream.run_too_long hr (t := t) rfl (by rw [FullStream.new_ctl]; nofun)
        (htls t rfl).2.1).1 htls.sender hm
      rw [streamPart_serverFull] at h2
      exact ⟨t, b, rfl, h1, h2⟩

/-- A failure of TLS ends the conversation: if a record is broken or plaintext is refused, the proxy has stopped, and it
stopped without a panic. -/
theorem C55_failure (hL : L.Lawful) (hP : L.Proxyable) (h : (Proxy.start tc ts gc).run L gs as = some (p, T))
    {i : TlsItem} (hi : i ≠ .hung) (hm : .clientTls i ∈ T ∨ .serverTls i ∈ T) : p = .over := by
  have hinv := Proxy.run_inv hL hP h
  have calm : ¬ Calm T := fun hc => hm.elim (hc i).1 (hc i).2
  cases p with
  | greeting t s => exact (calm hinv.1.2.1).elim
  | conversation c s => exact (calm hinv.1.1).elim
  | over => rfl
  | hung =>
    obtain ⟨-, T', hc, rfl | rfl⟩ := hinv
    · simp only [List.mem_append, List.mem_singleton, ProxyItem.clientTls.injEq, reduceCtorEq, or_false] at hm
      rcases hm with (hm | hm) | hm
      · exact ((hc i).1 hm).elim
      · exact (hi hm).elim
      · exact ((hc i).2 hm).elim
    · simp only [List.mem_append, List.mem_singleton, ProxyItem.serverTls.injEq, reduceCtorEq, or_false] at hm
      rcases hm with hm | hm | hm
      · exact ((hc i).1 hm).elim
      · exact ((hc i).2 hm).elim
      · exact (hi hm).elim
  | dead =>
    obtain ⟨c, s, o, gr, V, U, hd⟩ := hinv
    exact (calm hd.calm).elim

/-- A connection that fails or is closed ends the conversation: the pending read or write fails, the read gives nothing, or
the write takes nothing. -/
theorem C55_closed (h : (Proxy.start tc ts gc).run L gs as = some (p, T)) {act : IoAct} {p' : Proxy K} {U : List ProxyItem}
    (ha : act ∈ [.fail, .read [], .write 0])
    (hs : p.step L gs (.client act) = some (p', U) ∨ p.step L gs (.server act) = some (p', U)) : p' = .over :=
  Proxy.step_closed (Proxy.run_noFlush (p := .start tc ts gc) (Proxy.new_noFlush ts (Client.new gc .default)) h) ha hs

/-- The proxy of `ProxyTlsSample.run_talk` is in the conversation, and the connection to the client fails while the proxy waits
for it. -/
example : ∃ c s T p' U, ProxyTlsSample.run ProxyTlsSample.talk = some (.conversation c s, T) ∧
    (Proxy.conversation c s).step Toy.lib ProxySample.gs (.client .fail) = some (p', U) := by
  have h : (ProxyTlsSample.run ProxyTlsSample.talk).map (fun x => (ProxySample.stage x.1,
      (x.1.step Toy.lib ProxySample.gs (.client .fail)).isSome)) = some (.conversation, true) := by decide +kernel
  obtain ⟨⟨p, T⟩, h1, h2⟩ := ProxySample.of_map h
  simp only [Prod.mk.injEq] at h2
  obtain ⟨⟨p', U⟩, h3⟩ := Option.isSome_iff_exists.mp h2.2
  cases p with
  | conversation c s => exact ⟨c, s, T, p', U, h1, h3⟩
  | _ => cases h2.1

/-- Together, for commands: what the proxy writes to the server opens to a beginning of the encodings of the commands
that its server found in the plaintext of what the client sent (`C41_source`). -/
theorem C55_commands (hL : L.Lawful) (hP : L.Proxyable) (htls : Connected paired ts)
    (h : (Proxy.start tc ts gc).run L gs as = some (p, T)) (hr : .serverTls .refused ∉ T)
    (hreg : ∀ c ∈ receivedCommands T, c.isRegular = true)
    (hrej : ∀ hd cmd st, .commandRejected hd cmd st ∉ streamEvents (serverSide T)) :
    ∃ waiting out, Sealed paired ts (streamWrote (serverSide T) ++ waiting) out ∧
      out <+: (receivedCommands T).flatMap fun c => wire (L.encodeCommand c) := by
  obtain ⟨w, hw⟩ := C55_server_written hL hP htls h hr
  exact ⟨w, _, hw, C41_bytes hL hP h hreg hrej⟩

/-- A conversation over TLS that meets the hypotheses. -/
example : ∃ c s T, ProxyTlsSample.run ProxyTlsSample.talk = some (.conversation c s, T) ∧
    Connected (· = ·) (some ProxyTlsSample.tc) ∧ Connected (· = ·) (some ProxyTlsSample.ts) ∧
    HoldsPlain (some ProxyTlsSample.tc) (streamRead (clientSide T)) (ClientSample.ln "A Cz") ∧
    HoldsPlain (some ProxyTlsSample.ts) (streamRead (serverSide T)) (ClientSample.ln "G[CRSQ]hi" ++ ClientSample.ln "oA done") ∧
    receivedCommands T = [⟨ClientSample.str "A", .other (ClientSample.str "z")⟩] := by
  obtain ⟨c, s, T, h, h1, h2, -, h4, -⟩ := ProxyTlsSample.run_talk
  refine ⟨c, s, T, h, ProxyTlsSample.tc_connected, ProxyTlsSample.ts_connected, ?_, ?_, h4⟩
  · rw [h1]
    exact ⟨(ProxyTlsSample.sealed (ClientSample.str "A C")) ++ ([254] ++ (ProxyTlsSample.sealed (ClientSample.ln "z") ++ [])), [],
      [.data (ClientSample.str "A C"), .other, .data (ClientSample.ln "z")], 6, by decide +kernel,
      .cons (k' := 4) (by decide +kernel) (.cons (k' := 5) (by decide +kernel) (.cons (by decide +kernel) (.nil _))),
      by simp, rfl, by decide +kernel⟩
  · rw [h2]
    exact ⟨(ProxyTlsSample.sealed (ClientSample.ln "G[CRSQ]hi")) ++ (ProxyTlsSample.sealed (ClientSample.ln "oA done") ++ []), [],
      [.data (ClientSample.ln "G[CRSQ]hi"), .data (ClientSample.ln "oA done")], 3, by decide +kernel,
      .cons (k' := 2) (by decide +kernel) (.cons (by decide +kernel) (.nil _)), by simp, rfl, by decide +kernel⟩

/-- A broken record ends the conversation. -/
example : (ProxyTlsSample.run ProxyTlsSample.garbled).map (fun x => (ProxySample.stage x.1,
    decide (.clientTls .broken ∈ x.2))) = some (.over, true) := by decide +kernel

end ImapFlow

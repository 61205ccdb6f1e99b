import Verif.Proofs.Upgrade
import Verif.Props.C48
import Verif.Spec.UpgradeSamples

/-!
# C78: after an upgrade to TLS, only what was received over TLS is reported

False of the code: the client or server keeps the bytes that arrived before the upgrade, and reports them afterwards as if they had been
received over TLS (`C78_injected_server`, `C78_injected_client`, `C78_glued`); its owner cannot see that there are such bytes.
`C78_server` and `C78_client` say exactly what is reported, `C78_output` what is written; `C78_server_partial` and `C78_client_partial`
are the property for connections on which nothing arrived too early.
-/

namespace ImapFlow

variable {K : Type} {L : Lib}

/-- After the upgrade, the bytes of the messages and errors that are reported, followed by those still buffered, are what was read before
the upgrade without being reported, followed by what was decrypted. -/
theorem C78_server {g : HandleGenerator} {o : ServerOptions} {gr : Greeting} {t : Tls K} (hR : t.layer.Receives) (ht : t.Ready)
    (u : Upgraded (serverMachine L) (Server.new g o gr) t) (ho : u.OwnedServer) {cs : List RecordContent} (hp : u.Protected cs)
    (hd : u.after.ctl ≠ .at .dead) :
    ∃ S1 S2, (Server.new g o gr).trace L (serverOps u.plainPart) = .ok (u.before.state, S1) ∧
      u.before.state.trace L (serverOps u.securePart) = .ok (u.after.state, S2) ∧
      S2.filterMap SItem.result? = u.securePart.filterMap StreamItem.poll? ∧
      streamRead u.plainPart = serverTaken S1 ++ u.before.state.buffer ∧
      u.before.state.buffer ++ plaintext cs = serverTaken S2 ++ u.after.state.buffer := by
  obtain ⟨as1, c, h1, h2, h3, -⟩ := u.plain
  obtain ⟨as2, h4⟩ := u.run_after
  have r1 := C29_state h1 h2
  rw [h3] at r1
  obtain ⟨S1, t1, -, g1⟩ := server_replay_trace r1 ho.1
  obtain ⟨S2, t2, p2, g2⟩ := server_replay_trace (C47_state h4 hd) ho.2
  have a1 := C03_server_accounting t1
  have a2 := C03_server_accounting (Server.trace_join t1 t2)
  refine ⟨S1, S2, t1, t2, p2, ?_, ?_⟩
  · rw [← u.read, ← g1, a1]
  · have e : serverTaken (S1 ++ S2) = serverTaken S1 ++ serverTaken S2 := by simp [serverTaken]
    rw [serverGiven_append, a1, e, List.append_assoc, List.append_assoc] at a2
    have g2 : serverGiven S2 = streamDelivered u.securePart := g2
    rw [u.delivered hR ht hp hd] at g2
    rw [← g2]
    exact List.append_cancel_left a2

/-- The same for a client. -/
theorem C78_client (hL : L.Lawful) {g : HandleGenerator} {o : ClientOptions} {t : Tls K} (hR : t.layer.Receives) (ht : t.Ready)
    (u : Upgraded (clientMachine L) (Client.new g o) t) (ho : u.OwnedClient) {cs : List RecordContent} (hp : u.Protected cs)
    (hd : u.after.ctl ≠ .at .dead) :
    ∃ S1 S2, (Client.new g o).trace L (clientOps u.plainPart) = .ok (u.before.state, S1) ∧
      u.before.state.trace L (clientOps u.securePart) = .ok (u.after.state, S2) ∧
      S2.filterMap CItem.result? = u.securePart.filterMap StreamItem.poll? ∧
      streamRead u.plainPart = clientTaken S1 ++ u.before.state.buffer ∧
      u.before.state.buffer ++ plaintext cs = clientTaken S2 ++ u.after.state.buffer := by
  obtain ⟨as1, c, h1, h2, h3, -⟩ := u.plain
  obtain ⟨as2, h4⟩ := u.run_after
  have r1 := C29_state h1 h2
  rw [h3] at r1
  obtain ⟨S1, t1, -, g1⟩ := client_replay_trace r1 ho.1
  obtain ⟨S2, t2, p2, g2⟩ := client_replay_trace (C47_state h4 hd) ho.2
  have a1 := C03_client_accounting hL t1
  have a2 := C03_client_accounting hL (Client.trace_join t1 t2)
  refine ⟨S1, S2, t1, t2, p2, ?_, ?_⟩
  · rw [← u.read, ← g1, a1]
  · have e : clientTaken (S1 ++ S2) = clientTaken S1 ++ clientTaken S2 := by simp [clientTaken]
    rw [clientGiven_append, a1, e, List.append_assoc, List.append_assoc] at a2
    have g2 : clientGiven S2 = streamDelivered u.securePart := g2
    rw [u.delivered hR ht hp hd] at g2
    rw [← g2]
    exact List.append_cancel_left a2

/-- If everything that was read before the upgrade had been reported, then a server reports afterwards, in order, exactly a beginning of
what was decrypted, and every message it reports is the decoded form of its part of it.

Partial: the owner of the server cannot check the condition, and the peer or an attacker can violate it (`C78_injected_server`). -/
theorem C78_server_partial {g : HandleGenerator} {o : ServerOptions} {gr : Greeting} {t : Tls K} (hR : t.layer.Receives) (ht : t.Ready)
    (u : Upgraded (serverMachine L) (Server.new g o gr) t) (ho : u.OwnedServer) {cs : List RecordContent} (hp : u.Protected cs)
    (hd : u.after.ctl ≠ .at .dead) (hb : u.before.state.buffer = []) :
    ∃ S, u.before.state.trace L (serverOps u.securePart) = .ok (u.after.state, S) ∧
      S.filterMap SItem.result? = u.securePart.filterMap StreamItem.poll? ∧
      plaintext cs = serverTaken S ++ u.after.state.buffer ∧
      ∀ w e, .received w e ∈ S → (∃ c, e = c.event ∧ L.decodeCommand w = .ok ([], c)) ∨
        (∃ d, e = .authenticateDataReceived d ∧ L.decodeAuthenticateData w = .ok ([], d)) ∨
        (e = .idleDoneReceived ∧ L.decodeIdleDone w = .ok ([], ())) := by
  obtain ⟨S1, S2, t1, t2, p, -, q⟩ := C78_server hR ht u ho hp hd
  rw [hb, List.nil_append] at q
  refine ⟨S2, t2, p, q, fun w e hm => ?_⟩
  obtain ⟨A, B, rfl⟩ := List.append_of_mem hm
  have h := Server.trace_join t1 t2
  rw [← List.append_assoc] at h
  exact C03_server_message_bytes h

/-- The same for a client. -/
theorem C78_client_partial (hL : L.Lawful) {g : HandleGenerator} {o : ClientOptions} {t : Tls K} (hR : t.layer.Receives) (ht : t.Ready)
    (u : Upgraded (clientMachine L) (Client.new g o) t) (ho : u.OwnedClient) {cs : List RecordContent} (hp : u.Protected cs)
    (hd : u.after.ctl ≠ .at .dead) (hb : u.before.state.buffer = []) :
    ∃ S1 S2, (Client.new g o).trace L (clientOps u.plainPart) = .ok (u.before.state, S1) ∧
      u.before.state.trace L (clientOps u.securePart) = .ok (u.after.state, S2) ∧
      S2.filterMap CItem.result? = u.securePart.filterMap StreamItem.poll? ∧
      plaintext cs = clientTaken S2 ++ u.after.state.buffer ∧
      ∀ A w e B, S2 = A ++ .received w e :: B → (∃ gr, e = .greetingReceived gr ∧ L.decodeGreeting w = .ok ([], gr)) ∨
        (∃ r, (ClientView.of (S1 ++ A)).route r = some e ∧ L.decodeResponse w = .ok ([], r)) := by
  obtain ⟨S1, S2, t1, t2, p, -, q⟩ := C78_client hL hR ht u ho hp hd
  rw [hb, List.nil_append] at q
  refine ⟨S1, S2, t1, t2, p, q, fun A w e B hm => ?_⟩
  subst hm
  have h := Client.trace_join t1 t2
  rw [← List.append_assoc] at h
  exact C03_client_message_bytes hL h

/-- What is handed out before the upgrade is written without TLS, except for what is still in the write buffer: that is lost.  What is
handed out after the upgrade is written as records, and nothing else is (unless `encrypt` fails, C34). -/
theorem C78_output {σ ε ev ι : Type} {M : Machine σ ε ev ι} {s : σ} {t : Tls K} {paired : K → K → Prop} (hD : t.layer.Delivers paired)
    {kr : K} (hk : paired t.writeKey kr) (hs : t.sendable = []) (u : Upgraded M s t) (hr : .refused ∉ u.itemsAfter) :
    streamWrote u.plainPart ++ u.before.writeBuffer = streamOutput u.plainPart ∧
    ∃ (ds : List Bytes) (kr' : K),
      t.layer.Carries kr (streamWrote u.securePart ++ u.after.writeBuffer) (ds.map .data) kr' ∧
      ds.flatten = streamOutput u.securePart := by
  obtain ⟨as, h⟩ := u.run_after
  exact ⟨u.wrote, C48_output hD hk hs h hr⟩

set_option synthInstance.maxSize 4096 in
/-- A command that arrives in plaintext together with STARTTLS is reported after the upgrade, although nothing was received over TLS
and everything was flushed.  Before the upgrade the owner of the server sees exactly what it sees if only STARTTLS arrives. -/
theorem C78_injected_server :
    (∃ u : Upgraded (serverMachine Imap.lib) UpgradeSample.server UpgradeSample.tls,
      returnedOrFlushed u.itemsBefore = UpgradeSample.serverSees ∧ u.before.writeBuffer = [] ∧ streamRead u.securePart = [] ∧
      returnedOrFlushed u.itemsAfter = [some (.ok (.commandReceived UpgradeSample.delete))]) ∧
    ∃ u : Upgraded (serverMachine Imap.lib) UpgradeSample.server UpgradeSample.tls,
      returnedOrFlushed u.itemsBefore = UpgradeSample.serverSees ∧ u.before.writeBuffer = [] ∧ streamRead u.securePart = [] ∧
      returnedOrFlushed u.itemsAfter = [] ∧ u.after.ctl = .at .reading := by
  refine ⟨?_, ?_⟩
  · obtain ⟨u, h⟩ := Upgraded.of_run (M := serverMachine Imap.lib) (s := UpgradeSample.server) (t := UpgradeSample.tls)
      (as := UpgradeSample.serverActs (ascii "a2 DELETE x\r\n")) (as' := [.callNext])
      (f := fun x => (returnedOrFlushed x.2.1, x.1.writeBuffer, streamRead (streamPart x.2.2.2), returnedOrFlushed x.2.2.2))
      (y := (UpgradeSample.serverSees, [], [], [some (.ok (.commandReceived UpgradeSample.delete))])) (by decide +kernel)
    simp only [Prod.mk.injEq] at h
    exact ⟨u, h⟩
  · obtain ⟨u, h⟩ := Upgraded.of_run (M := serverMachine Imap.lib) (s := UpgradeSample.server) (t := UpgradeSample.tls)
      (as := UpgradeSample.serverActs []) (as' := [.callNext])
      (f := fun x => (returnedOrFlushed x.2.1, x.1.writeBuffer, streamRead (streamPart x.2.2.2), returnedOrFlushed x.2.2.2,
        x.2.2.1.ctl)) (y := (UpgradeSample.serverSees, [], [], [], .at .reading)) (by decide +kernel)
    simp only [Prod.mk.injEq] at h
    exact ⟨u, h⟩

set_option synthInstance.maxSize 4096 in
/-- The same for a client: data that arrives in plaintext together with the answer to STARTTLS is reported after the upgrade. -/
theorem C78_injected_client :
    (∃ u : Upgraded (clientMachine Imap.lib) UpgradeSample.client UpgradeSample.tls,
      returnedOrFlushed u.itemsBefore = UpgradeSample.clientSees ∧ u.before.writeBuffer = [] ∧ streamRead u.securePart = [] ∧
      returnedOrFlushed u.itemsAfter = [some (.ok (.dataReceived (.capability ⟨.imap4Rev1, [.auth .plain]⟩)))]) ∧
    ∃ u : Upgraded (clientMachine Imap.lib) UpgradeSample.client UpgradeSample.tls,
      returnedOrFlushed u.itemsBefore = UpgradeSample.clientSees ∧ u.before.writeBuffer = [] ∧ streamRead u.securePart = [] ∧
      returnedOrFlushed u.itemsAfter = [] ∧ u.after.ctl = .at .reading := by
  refine ⟨?_, ?_⟩
  · obtain ⟨u, h⟩ := Upgraded.of_run (M := clientMachine Imap.lib) (s := UpgradeSample.client) (t := UpgradeSample.tls)
      (as := UpgradeSample.clientActs (ascii "* CAPABILITY IMAP4REV1 AUTH=PLAIN\r\n")) (as' := [.callNext])
      (f := fun x => (returnedOrFlushed x.2.1, x.1.writeBuffer, streamRead (streamPart x.2.2.2), returnedOrFlushed x.2.2.2))
      (y := (UpgradeSample.clientSees, [], [], [some (.ok (.dataReceived (.capability ⟨.imap4Rev1, [.auth .plain]⟩)))]))
      (by decide +kernel)
    simp only [Prod.mk.injEq] at h
    exact ⟨u, h⟩
  · obtain ⟨u, h⟩ := Upgraded.of_run (M := clientMachine Imap.lib) (s := UpgradeSample.client) (t := UpgradeSample.tls)
      (as := UpgradeSample.clientActs []) (as' := [.callNext])
      (f := fun x => (returnedOrFlushed x.2.1, x.1.writeBuffer, streamRead (streamPart x.2.2.2), returnedOrFlushed x.2.2.2,
        x.2.2.1.ctl)) (y := (UpgradeSample.clientSees, [], [], [], .at .reading)) (by decide +kernel)
    simp only [Prod.mk.injEq] at h
    exact ⟨u, h⟩

set_option synthInstance.maxSize 4096 in
/-- The beginning of a line that arrives in plaintext is put in front of the first command that is received over TLS. -/
theorem C78_glued :
    ∃ u : Upgraded (serverMachine Imap.lib) UpgradeSample.server UpgradeSample.tls,
      returnedOrFlushed u.itemsBefore = UpgradeSample.serverSees ∧ streamDelivered u.securePart = ascii "a2 NOOP\r\n" ∧
      returnedOrFlushed u.itemsAfter = [some (.ok (.commandReceived UpgradeSample.glued))] := by
  obtain ⟨u, h⟩ := Upgraded.of_run (M := serverMachine Imap.lib) (s := UpgradeSample.server) (t := UpgradeSample.tls)
    (as := UpgradeSample.serverActs (ascii "x DELETE ")) (as' := [.callNext, .read ([9] ++ ascii "a2 NOOP\r\n")])
    (f := fun x => (returnedOrFlushed x.2.1, streamDelivered (streamPart x.2.2.2), returnedOrFlushed x.2.2.2))
    (y := (UpgradeSample.serverSees, ascii "a2 NOOP\r\n", [some (.ok (.commandReceived UpgradeSample.glued))])) (by decide +kernel)
  simp only [Prod.mk.injEq] at h
  exact ⟨u, h⟩

set_option synthInstance.maxSize 4096 in
/-- If the owner does not flush before the upgrade, a response that was reported as sent is lost. -/
theorem C78_lost :
    ∃ u : Upgraded (serverMachine Imap.lib) UpgradeSample.server UpgradeSample.tls,
      returnedOrFlushed u.itemsBefore = UpgradeSample.serverSees.dropLast ∧ u.before.writeBuffer = ascii "a1 OK go\r\n" ∧
      u.after.writeBuffer = [] ∧ streamWrote u.plainPart = ascii "* OK hi\r\n" ∧ streamWrote u.securePart = [] := by
  obtain ⟨u, h⟩ := Upgraded.of_run (M := serverMachine Imap.lib) (s := UpgradeSample.server) (t := UpgradeSample.tls)
    (as := UpgradeSample.hastyActs (ascii "a")) (as' := [.callNext])
    (f := fun x => (returnedOrFlushed x.2.1, x.1.writeBuffer, x.2.2.1.writeBuffer, streamWrote (streamPart x.2.1),
      streamWrote (streamPart x.2.2.2)))
    (y := (UpgradeSample.serverSees.dropLast, ascii "a1 OK go\r\n", [], ascii "* OK hi\r\n", [])) (by decide +kernel)
  simp only [Prod.mk.injEq] at h
  exact ⟨u, h⟩

set_option synthInstance.maxSize 4096 in
/-- The connection for which the property holds: a command is received over TLS, split by the socket, and the next one has begun. -/
example : ∃ u : Upgraded (serverMachine Imap.lib) UpgradeSample.server UpgradeSample.tls,
    u.OwnedServer ∧ u.after.ctl ≠ .at .dead ∧ u.before.state.buffer = [] ∧
    u.Protected [.data (ascii "a2 NOOP\r\na")] ∧ returnedOrFlushed u.itemsAfter = [some (.ok (.commandReceived UpgradeSample.noop))] := by
  obtain ⟨u, h⟩ := Upgraded.of_run (M := serverMachine Imap.lib) (s := UpgradeSample.server) (t := UpgradeSample.tls)
    (as := UpgradeSample.serverActs []) (as' := [.callNext, .read ([10] ++ ascii "a2 NO"), .read (ascii "OP\r\na" ++ [5])])
    (f := fun x => (streamPart x.2.1, streamPart x.2.2.2, x.2.2.1.ctl, x.1.state.buffer, returnedOrFlushed x.2.2.2))
    (y := (UpgradeSample.serverItems, UpgradeSample.secureItems, .at .idle, [],
      [some (.ok (.commandReceived UpgradeSample.noop))])) (by decide +kernel)
  simp only [Prod.mk.injEq] at h
  obtain ⟨h1, h2, h3, h4, h5⟩ := h
  refine ⟨u, ?_, by rw [h3]; decide, h4, ?_, h5⟩
  · unfold Upgraded.OwnedServer Upgraded.plainPart Upgraded.securePart
    rw [h1, h2]
    simp [UpgradeSample.serverItems, UpgradeSample.secureItems]
  · unfold Upgraded.Protected Upgraded.securePart
    rw [h2]
    exact ⟨[10] ++ ascii "a2 NOOP\r\na" ++ [], [5], 1, by decide +kernel, .cons (k' := 1) (by decide +kernel) (.nil _), by simp,
      by decide +kernel⟩

set_option synthInstance.maxSize 4096 in
/-- A client that receives data over TLS. -/
example : ∃ u : Upgraded (clientMachine Imap.lib) UpgradeSample.client UpgradeSample.tls,
    u.OwnedClient ∧ u.after.ctl ≠ .at .dead ∧ u.before.state.buffer = [] ∧
    u.Protected [.data (ascii "* BYE x\r\n")] ∧
    returnedOrFlushed u.itemsAfter = [some (.ok (.statusReceived (.bye none (ascii "x"))))] := by
  obtain ⟨u, h⟩ := Upgraded.of_run (M := clientMachine Imap.lib) (s := UpgradeSample.client) (t := UpgradeSample.tls)
    (as := UpgradeSample.clientActs []) (as' := [.callNext, .read ([9] ++ ascii "* BYE x\r\n")])
    (f := fun x => (UpgradeSample.owned (streamPart x.2.1), UpgradeSample.owned (streamPart x.2.2.2),
      streamRead (streamPart x.2.2.2), x.2.2.1.ctl, x.1.state.buffer, returnedOrFlushed x.2.2.2))
    (y := (true, true, [9] ++ ascii "* BYE x\r\n", .at .idle, [],
      [some (.ok (.statusReceived (.bye none (ascii "x"))))])) (by decide +kernel)
  simp only [Prod.mk.injEq] at h
  obtain ⟨h1, h2, h3, h4, h5, h6⟩ := h
  refine ⟨u, ⟨UpgradeSample.owned_spec h1, UpgradeSample.owned_spec h2⟩, by rw [h4]; decide, h5, ?_, h6⟩
  unfold Upgraded.Protected Upgraded.securePart
  rw [h3]
  exact ⟨[9] ++ ascii "* BYE x\r\n" ++ [], [], 1, by decide +kernel, .cons (k' := 1) (by decide +kernel) (.nil _), by simp,
    by decide +kernel⟩

end ImapFlow

import Verif.Proofs.ProxyWire
import Verif.Props.C49
import Verif.Spec.ProxyTlsSamples

/-!
# C56: the proxy ends the conversation when a peer ends its TLS connection (false; what holds instead)

A peer ends a TLS connection with `close_notify`.  Then `next` loops (C33, C49).  It does so within one poll of the
task that serves both connections (`/repo/proxy/src/proxy.rs:222-235`), so this task never does anything again.
-/

namespace ImapFlow

variable {K : Type} {L : Lib} {tc ts : Option (Tls K)} {gc gs : HandleGenerator} {as : List ProxyAct} {p : Proxy K}
  {T : List ProxyItem} {paired : K → K → Prop}

/-- The proxy hangs as soon as it has read `close_notify` from the client, whatever the server does: nothing is
possible any more, on either connection. -/
theorem C56_client_hangs (hL : L.Lawful) (hP : L.Proxyable) {t : Tls K} (htls : Connected paired (some t))
    (h : (Proxy.start (some t) ts gc).run L gs as = some (p, T)) {records more : Bytes} {cs : List RecordContent} {k : K}
    (hbytes : t.raw ++ streamRead (clientSide T) = records ++ more) (hrec : t.layer.Carries t.readKey records cs k)
    (hclose : RecordContent.closeNotify ∈ cs) :
    p = .hung ∧ (∃ T', T = T' ++ [.clientTls .hung]) ∧ ∀ a, p.step L gs a = none := by
  have hhung : FullItem.hung ∈ clientFull T := by
    rcases Proxy.run_client hL hP h with ⟨h1, -⟩ | ⟨o, gr, c, V, -, -, hl⟩
    · exfalso
      have hr := (htls t rfl).1
      rw [clientSide_of_full h1] at hbytes
      have h2 : t.raw = records ++ more := by simpa [streamRead] using hbytes
      cases hrec with
      | nil => cases hclose
      | @cons _ _ _ _ bs _ _ h3 h4 =>
        have h6 := hr.1.exact h3 (bs ++ more)
        rw [List.take_length, ← List.append_assoc, ← h2, hr.2.raw] at h6
        cases h6
    · obtain ⟨as', hr⟩ := hl.run
      obtain ⟨h1, T', h2⟩ := FullStream.run_hangs hr (t := t) rfl rfl (htls t rfl).1.1 (htls t rfl).1.2
        ⟨records, more, cs, k, by rw [streamPart_clientFull]; exact hbytes, hrec, hclose⟩
      rw [h2]; simp
  have hm := mem_clientFull.2.2.1 hhung
  have hinv := Proxy.run_inv hL hP h
  cases p with
  | greeting t s => exact ((hinv.1.2.1 _).1 hm).elim
  | conversation c s => exact ((hinv.1.1 _).1 hm).elim
  | over => exact (hinv.2 _ (.inl rfl) hm).elim
  | dead =>
    obtain ⟨c, s, o, gr, V, U, hd⟩ := hinv
    exact ((hd.calm _).1 hm).elim
  | hung =>
    refine ⟨rfl, ?_, fun a => by cases a <;> rfl⟩
    obtain ⟨-, T', hc, rfl | rfl⟩ := hinv
    · exact ⟨T', rfl⟩
    · exfalso
      rcases List.mem_append.1 hm with hm | hm
      · exact (hc _).1 hm
      · cases List.mem_singleton.1 hm

/-- The same for the server: what the client sends from then on is not even read. -/
theorem C56_server_hangs (hL : L.Lawful) (hP : L.Proxyable) {t : Tls K} (htls : Connected paired (some t))
    (h : (Proxy.start tc (some t) gc).run L gs as = some (p, T)) {records more : Bytes} {cs : List RecordContent} {k : K}
    (hbytes : t.raw ++ streamRead (serverSide T) = records ++ more) (hrec : t.layer.Carries t.readKey records cs k)
    (hclose : RecordContent.closeNotify ∈ cs) :
    p = .hung ∧ (∃ T', T = T' ++ [.serverTls .hung]) ∧ ∀ a, p.step L gs a = none := by
  have hhung : FullItem.hung ∈ serverFull T := by
    obtain ⟨s, U, hl⟩ := Proxy.run_server hL hP h
    obtain ⟨as', hr⟩ := hl.run
    obtain ⟨h1, T', h2⟩ := FullStream.run_hangs hr (t := t) rfl rfl (htls t rfl).1.1 (htls t rfl).1.2
      ⟨records, more, cs, k, by rw [streamPart_serverFull]; exact hbytes, hrec, hclose⟩
    rw [h2]; simp
  have hm := mem_serverFull.2.2.1 hhung
  have hinv := Proxy.run_inv hL hP h
  cases p with
  | greeting t s => exact ((hinv.1.2.1 _).2 hm).elim
  | conversation c s => exact ((hinv.1.1 _).2 hm).elim
  | over => exact (hinv.2 _ (.inr rfl) hm).elim
  | dead =>
    obtain ⟨c, s, o, gr, V, U, hd⟩ := hinv
    exact ((hd.calm _).2 hm).elim
  | hung =>
    refine ⟨rfl, ?_, fun a => by cases a <;> rfl⟩
    obtain ⟨-, T', hc, rfl | rfl⟩ := hinv
    · exfalso
      rcases List.mem_append.1 hm with hm | hm
      · exact (hc _).2 hm
      · cases List.mem_singleton.1 hm
    · exact ⟨T', rfl⟩

/-- There is no other way to hang: with peers that do not send `close_notify` (and no broken records) the proxy never
hangs. -/
theorem C56_only_then (hL : L.Lawful) (hP : L.Proxyable) (hc : Connected paired tc) (hs : Connected paired ts)
    (h : (Proxy.start tc ts gc).run L gs as = some (p, T)) {plain1 plain2 : Bytes}
    (h1 : HoldsPlain tc (streamRead (clientSide T)) plain1) (h2 : HoldsPlain ts (streamRead (serverSide T)) plain2) :
    p ≠ .hung := by
  rintro rfl
  obtain ⟨-, T', -, rfl | rfl⟩ := Proxy.run_inv hL hP h
  · have hm : FullItem.hung ∈ clientFull (T' ++ [.clientTls .hung]) := mem_clientFull.2.2.2 (by simp)
    rcases Proxy.run_client hL hP h with ⟨h3, -⟩ | ⟨o, gr, c, V, -, -, hl⟩
    · rw [h3] at hm; cases hm
    · obtain ⟨as', hr⟩ := hl.run
      exact (FullStream.new_read hc hr hl.alive (plain := plain1) (by rw [streamPart_clientFull]; exact h1)).2.1 hm
  · have hm : FullItem.hung ∈ serverFull (T' ++ [.serverTls .hung]) := mem_serverFull.2.2.2 (by simp)
    obtain ⟨s, U, hl⟩ := Proxy.run_server hL hP h
    obtain ⟨as', hr⟩ := hl.run
    exact (FullStream.new_read hs hr hl.alive (plain := plain2) (by rw [streamPart_serverFull]; exact h2)).2.1 hm

/-- What holds: the end of a TCP connection, if it is seen, ends the conversation; and it can be seen whenever the
stream waits. -/
theorem C56_partial {c : FullStream K Server} {s : FullStream K Client} :
    (c.ctl = .at .reading ∨ c.ctl = .at .racing →
      ∃ items, Proxy.step L gs (.conversation c s) (.client (.read [])) = some (.over, items)) ∧
    (s.ctl = .at .reading ∨ s.ctl = .at .racing →
      ∃ items, Proxy.step L gs (.conversation c s) (.server (.read [])) = some (.over, items)) := by
  constructor
  · intro hc
    obtain ⟨c', items, h⟩ := C49_waiting (M := serverMachine L) hc
    obtain ⟨rfl, rfl⟩ := C49_partial h
    simp only [Proxy.step, IoAct.toStream, h]
    rw [if_neg (by simp), if_neg (by simp)]
    exact ⟨_, rfl⟩
  · intro hs
    obtain ⟨s', items, h⟩ := C49_waiting (M := clientMachine L) hs
    obtain ⟨rfl, rfl⟩ := C49_partial h
    simp only [Proxy.step, IoAct.toStream, h]
    rw [if_neg (by simp), if_neg (by simp)]
    exact ⟨_, rfl⟩

/-- Before the greeting of the server nothing is read from the client, so that the proxy does not notice that the client
has gone, also without TLS. -/
theorem C56_before_greeting {tls : Option (Tls K)} {s : FullStream K Client} {act : IoAct} :
    Proxy.step L gs (.greeting tls s) (.client act) = none := rfl

/-- The claim is false: the client ends its connection and the proxy does not end the conversation. -/
theorem C56_false : ¬ ∀ (L : Lib) (_ : L.Lawful) (_ : L.Proxyable) (t : Tls Nat) (ts : Option (Tls Nat))
    (gc gs : HandleGenerator) (as : List ProxyAct) (p : Proxy Nat) (T : List ProxyItem) (records : Bytes)
    (cs : List RecordContent) (k : Nat),
    Connected (· = ·) (some t) → Connected (· = ·) ts → (Proxy.start (some t) ts gc).run L gs as = some (p, T) →
    t.raw ++ streamRead (clientSide T) = records → t.layer.Carries t.readKey records cs k →
    RecordContent.closeNotify ∈ cs → p = .over := by
  intro H
  have h : (ProxyTlsSample.run ProxyTlsSample.close).map (fun x => (ProxySample.stage x.1, streamRead (clientSide x.2))) =
    some (.hung, ProxyTlsSample.fromClient ++ [255]) := by decide +kernel
  obtain ⟨⟨p, T⟩, h1, h2⟩ := ProxySample.of_map h
  simp only [Prod.mk.injEq] at h2
  obtain ⟨h2, h3⟩ := h2
  have h4 := H _ Toy.lawful Toy.proxyable ProxyTlsSample.tc (some ProxyTlsSample.ts) _ _ _ p T
    ((ProxyTlsSample.sealed (ClientSample.str "A C")) ++ ([254] ++ (ProxyTlsSample.sealed (ClientSample.ln "z") ++ ([255] ++ []))))
    [.data (ClientSample.str "A C"), .other, .data (ClientSample.ln "z"), .closeNotify] 7
    ProxyTlsSample.tc_connected ProxyTlsSample.ts_connected h1 (by rw [h3]; decide +kernel)
    (.cons (k' := 4) (by decide +kernel) (.cons (k' := 5) (by decide +kernel) (.cons (k' := 6) (by decide +kernel)
      (.cons (by decide +kernel) (.nil _))))) (by simp)
  rw [h4] at h2
  cases h2

/-- When the client ends its connection, the response that the server has sent is not delivered. -/
example : (ProxyTlsSample.run ProxyTlsSample.close).map (fun x => (ProxySample.stage x.1, forwardedResponses x.2,
      decide (streamOutput (clientSide x.2) = ClientSample.ln "G[CR]hi" ++ ClientSample.ln "oA done"),
      (streamWrote (clientSide x.2)).length)) =
    some (.hung, [.status (.tagged (ClientSample.str "A") ⟨.ok, none, ClientSample.str "done"⟩)], true, 23) := by decide +kernel

/-- The server ends its connection. -/
example : (ProxyTlsSample.run ProxyTlsSample.serverClose).map (fun x => (ProxySample.stage x.1,
    decide (.serverTls .hung ∈ x.2))) = some (.hung, true) := by decide +kernel

/-- The end of the TCP connection is seen. -/
example : (ProxyTlsSample.run ProxyTlsSample.eof).map (fun x => ProxySample.stage x.1) = some .over := by decide +kernel

end ImapFlow

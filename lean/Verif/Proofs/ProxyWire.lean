import Verif.Proofs.Proxy
import Verif.Proofs.StreamNetWait
import Verif.Spec.ProxyTls

/-!
# What the invariant of the proxy says about the two connections
-/

namespace ImapFlow

variable {K : Type} {L : Lib} {tc ts : Option (Tls K)} {gc gs : HandleGenerator} {as : List ProxyAct} {p : Proxy K}
  {T : List ProxyItem}

/-- The connection to the server. -/
theorem Proxy.run_server (hL : L.Lawful) (hP : L.Proxyable) (h : (Proxy.start tc ts gc).run L gs as = some (p, T)) :
    ∃ s U, ClientLink L ts gc .default (serverFull T) s U := by
  have hi := Proxy.run_inv hL hP h
  cases p with
  | greeting t s => obtain ⟨-, U, hi⟩ := hi; exact ⟨_, _, hi.server⟩
  | conversation c s => obtain ⟨-, o, gr, V, U, hi⟩ := hi; exact ⟨_, _, hi.server⟩
  | over =>
    rcases hi.1 with ⟨s, U, hi⟩ | ⟨c, s, o, gr, V, U, hi⟩
    · exact ⟨_, _, hi.server⟩
    · exact ⟨_, _, hi.server⟩
  | hung =>
    rcases hi.1 with ⟨s, U, hi⟩ | ⟨c, s, o, gr, V, U, hi⟩
    · exact ⟨_, _, hi.server⟩
    · exact ⟨_, _, hi.server⟩
  | dead => obtain ⟨c, s, o, gr, V, U, hi⟩ := hi; exact ⟨_, _, hi.server⟩

/-- The connection to the client, once the greeting was received. -/
theorem Proxy.run_client (hL : L.Lawful) (hP : L.Proxyable) (h : (Proxy.start tc ts gc).run L gs as = some (p, T)) :
    (clientFull T = [] ∧ streamEvents (serverSide T) = []) ∨ ∃ o gr c V, proxyServerOptions L = .ok o ∧
      (∃ es, streamEvents (serverSide T) = .greetingReceived gr :: es) ∧
      ServerLink L tc gs o gr.restrict (clientFull T) c V := by
  have hi := Proxy.run_inv hL hP h
  cases p with
  | greeting t s => obtain ⟨-, U, hi⟩ := hi; exact .inl ⟨hi.client, hi.events⟩
  | conversation c s =>
    obtain ⟨-, o, gr, V, U, hi⟩ := hi
    exact .inr ⟨_, _, _, _, hi.options, hi.greeting, hi.client⟩
  | over =>
    rcases hi.1 with ⟨s, U, hi⟩ | ⟨c, s, o, gr, V, U, hi⟩
    · exact .inl ⟨hi.client, hi.events⟩
    · exact .inr ⟨_, _, _, _, hi.options, hi.greeting, hi.client⟩
  | hung =>
    rcases hi.1 with ⟨s, U, hi⟩ | ⟨c, s, o, gr, V, U, hi⟩
    · exact .inl ⟨hi.client, hi.events⟩
    · exact .inr ⟨_, _, _, _, hi.options, hi.greeting, hi.client⟩
  | dead =>
    obtain ⟨c, s, o, gr, V, U, hi⟩ := hi
    exact .inr ⟨_, _, _, _, hi.options, hi.greeting, hi.client⟩

/-- The books of the proxy. -/
theorem Proxy.run_ledger (hL : L.Lawful) (hP : L.Proxyable) (h : (Proxy.start tc ts gc).run L gs as = some (p, T))
    (hp : p ≠ .dead) : Ledger T := by
  have hi := Proxy.run_inv hL hP h
  cases p with
  | greeting t s => obtain ⟨-, U, hi⟩ := hi; exact hi.ledger
  | conversation c s => obtain ⟨-, o, gr, V, U, hi⟩ := hi; exact hi.ledger
  | over =>
    rcases hi.1 with ⟨s, U, hi⟩ | ⟨c, s, o, gr, V, U, hi⟩
    · exact hi.ledger
    · exact hi.ledger
  | hung =>
    rcases hi.1 with ⟨s, U, hi⟩ | ⟨c, s, o, gr, V, U, hi⟩
    · exact hi.ledger
    · exact hi.ledger
  | dead => exact (hp rfl).elim

/-! ## Sockets -/

theorem HoldsPlain.feeds {tls : Option (Tls K)} {bytes plain : Bytes} (h : HoldsPlain tls bytes plain) :
    ∃ tls', Feeds tls tls' bytes plain := by
  cases tls with
  | none => exact ⟨none, h⟩
  | some t =>
    obtain ⟨records, part, cs, k, h1, h2, h3, h4, h5⟩ := h
    exact ⟨some _, records, part, cs, k, h1, h2, h3, h4, h5, rfl⟩

theorem Sends.seals {paired : K → K → Prop} {tls tls' : Option (Tls K)} {b out : Bytes} (h : Sends paired tls tls' b out) :
    Sealed paired tls out b := by
  cases tls with
  | none => cases tls' <;> first | exact h | exact h.elim
  | some t =>
    cases tls' with
    | none => exact h.elim
    | some t' =>
      intro kr hk
      obtain ⟨ds, kr', h1, h2, -⟩ := h.2.2.2 kr hk
      exact ⟨ds, kr', h1, h2⟩

theorem Connected.receiver {paired : K → K → Prop} {tls : Option (Tls K)} (h : Connected paired tls) : Receiver tls :=
  fun t ht => (h t ht).1

theorem Connected.sender {paired : K → K → Prop} {tls : Option (Tls K)} (h : Connected paired tls) : Sender paired tls :=
  fun t ht => (h t ht).2

theorem Connected.growing {paired : K → K → Prop} {tls : Option (Tls K)} (h : Connected paired tls) : Growing tls :=
  fun t ht => (h t ht).2.1.length

theorem Connected.none (paired : K → K → Prop) : Connected paired none := nofun

section
variable {σ ε ev ι : Type}

theorem FullStream.new_read {paired : K → K → Prop} {M : Machine σ ε ev ι} {tls : Option (Tls K)} {s : σ}
    {as : List (StreamAct ι)} {c : FullStream K σ} {T : List (FullItem ε ev ι)} (hc : Connected paired tls)
    (h : FullStream.run M (.new tls s) as = some (c, T)) (ha : c.ctl ≠ .at .dead) {plain : Bytes}
    (ho : HoldsPlain tls (streamRead (streamPart T)) plain) :
    streamDelivered (streamPart T) = plain ∧ .hung ∉ T ∧ .broken ∉ T := by
  obtain ⟨tls', hf⟩ := ho.feeds
  obtain ⟨-, h1, h2⟩ := FullStream.run_recv h (by rw [FullStream.new_ctl]; simp) (by cases tls <;> rfl)
    (by rw [FullStream.new_tls]; exact hc.receiver) (by rw [FullStream.new_tls]; exact hf)
  exact ⟨(h2 ha).2.2, h1⟩

theorem FullStream.new_wrote {paired : K → K → Prop} {M : Machine σ ε ev ι} {tls : Option (Tls K)} {s : σ}
    {as : List (StreamAct ι)} {c : FullStream K σ} {T : List (FullItem ε ev ι)} (hc : Connected paired tls)
    (h : FullStream.run M (.new tls s) as = some (c, T)) (hr : .refused ∉ T) :
    Sealed paired tls (streamWrote (streamPart T) ++ c.writeBuffer) (streamOutput (streamPart T)) ∧
    (c.ctl = .at .reading → c.writeBuffer = []) := by
  obtain ⟨⟨out, h1, h2⟩, -, h3⟩ := FullStream.run_send h (by rw [FullStream.new_tls]; exact hc.sender)
    (by rw [FullStream.new_ctl]; nofun) hr
  rw [FullStream.new_tls] at h1
  rw [h2, show (FullStream.new tls s).writeBuffer = [] by cases tls <;> rfl]
  exact ⟨h1.seals, h3⟩

theorem FullStream.new_unrefused {M : Machine σ ε ev ι} {s : σ} {as : List (StreamAct ι)} {c : FullStream K σ}
    {T : List (FullItem ε ev ι)} (h : FullStream.run M (.new none s) as = some (c, T)) : .refused ∉ T :=
  FullStream.run_not_refused h rfl

end

theorem mem_clientFull {T : List ProxyItem} : (.refused ∈ clientFull T ↔ .clientTls .refused ∈ T) ∧
    (.broken ∈ clientFull T ↔ .clientTls .broken ∈ T) ∧ (.hung ∈ clientFull T ↔ .clientTls .hung ∈ T) := by
  refine ⟨?_, ?_, ?_⟩ <;>
  · simp only [clientFull, List.mem_filterMap]
    constructor
    · rintro ⟨i, hi, he⟩
      unfold ProxyItem.clientFull? at he
      split at he <;> first | (cases he; done) | (cases he; exact hi)
    · exact fun hi => ⟨_, hi, rfl⟩

theorem mem_serverFull {T : List ProxyItem} : (.refused ∈ serverFull T ↔ .serverTls .refused ∈ T) ∧
    (.broken ∈ serverFull T ↔ .serverTls .broken ∈ T) ∧ (.hung ∈ serverFull T ↔ .serverTls .hung ∈ T) := by
  refine ⟨?_, ?_, ?_⟩ <;>
  · simp only [serverFull, List.mem_filterMap]
    constructor
    · rintro ⟨i, hi, he⟩
      unfold ProxyItem.serverFull? at he
      split at he <;> first | (cases he; done) | (cases he; exact hi)
    · exact fun hi => ⟨_, hi, rfl⟩

/-- The sockets of a connection to the server without TLS. -/
theorem ClientLink.plain {T : List ProxyItem} {s : FullStream K Client} {U : List CItem} {g : HandleGenerator}
    {o : ClientOptions} (h : ClientLink L (none : Option (Tls K)) g o (serverFull T) s U) :
    streamDelivered (serverSide T) = streamRead (serverSide T) ∧
    streamWrote (serverSide T) ++ s.writeBuffer = streamOutput (serverSide T) ∧
    (s.ctl = .at .reading → s.writeBuffer = []) := by
  obtain ⟨as, hr⟩ := h.run
  have hc : Connected (fun _ _ : K => True) none := .none _
  obtain ⟨h1, h2⟩ := FullStream.new_wrote hc hr (FullStream.new_unrefused hr)
  rw [streamPart_serverFull] at h1
  have h3 := (FullStream.new_read hc hr h.alive (plain := streamRead (serverSide T))
    (by rw [streamPart_serverFull]; exact rfl)).1
  rw [streamPart_serverFull] at h3
  exact ⟨h3, h1, h2⟩

/-- The sockets of a connection to the client without TLS. -/
theorem ServerLink.plain {T : List ProxyItem} {c : FullStream K Server} {V : List SItem} {g : HandleGenerator}
    {o : ServerOptions} {gr : Greeting} (h : ServerLink L (none : Option (Tls K)) g o gr (clientFull T) c V) :
    streamDelivered (clientSide T) = streamRead (clientSide T) ∧
    streamWrote (clientSide T) ++ c.writeBuffer = streamOutput (clientSide T) ∧
    (c.ctl = .at .reading → c.writeBuffer = []) := by
  obtain ⟨as, hr⟩ := h.run
  have hc : Connected (fun _ _ : K => True) none := .none _
  obtain ⟨h1, h2⟩ := FullStream.new_wrote hc hr (FullStream.new_unrefused hr)
  rw [streamPart_clientFull] at h1
  have h3 := (FullStream.new_read hc hr h.alive (plain := streamRead (clientSide T))
    (by rw [streamPart_clientFull]; exact rfl)).1
  rw [streamPart_clientFull] at h3
  exact ⟨h3, h1, h2⟩

theorem streamPart_nil {ε ev ι : Type} : streamPart ([] : List (FullItem ε ev ι)) = [] := rfl

theorem clientSide_of_full {T : List ProxyItem} (h : clientFull T = []) : clientSide T = [] := by
  rw [← streamPart_clientFull, h]; rfl

/-- A connection to the client without TLS: what was read is what the server got, and what it handed out is written or
waits. -/
theorem Proxy.run_client_plain (hL : L.Lawful) (hP : L.Proxyable)
    (h : (Proxy.start none ts gc).run L gs as = some (p, T)) :
    streamDelivered (clientSide T) = streamRead (clientSide T) ∧
    ∃ waiting, streamWrote (clientSide T) ++ waiting = streamOutput (clientSide T) := by
  rcases Proxy.run_client hL hP h with ⟨h1, -⟩ | ⟨o, gr, c, V, -, -, hl⟩
  · rw [clientSide_of_full h1]; exact ⟨rfl, [], rfl⟩
  · exact ⟨hl.plain.1, _, hl.plain.2.1⟩

/-- The same for the connection to the server. -/
theorem Proxy.run_server_plain (hL : L.Lawful) (hP : L.Proxyable)
    (h : (Proxy.start tc none gc).run L gs as = some (p, T)) :
    streamDelivered (serverSide T) = streamRead (serverSide T) ∧
    ∃ waiting, streamWrote (serverSide T) ++ waiting = streamOutput (serverSide T) := by
  obtain ⟨s, U, hl⟩ := Proxy.run_server hL hP h
  exact ⟨hl.plain.1, _, hl.plain.2.1⟩

/-- What the state of the connection to the server was given and handed out. -/
theorem ClientLink.bytes {T : List ProxyItem} {tls : Option (Tls K)} {s : FullStream K Client} {U : List CItem}
    {g : HandleGenerator} {o : ClientOptions} (h : ClientLink L tls g o (serverFull T) s U) :
    clientGiven U = streamDelivered (serverSide T) ∧ clientOutput U = streamOutput (serverSide T) := by
  rw [h.given, h.output, streamPart_serverFull]; exact ⟨rfl, rfl⟩

/-- What the state of the connection to the client was given and handed out. -/
theorem ServerLink.bytes {T : List ProxyItem} {tls : Option (Tls K)} {s : FullStream K Server} {V : List SItem}
    {g : HandleGenerator} {o : ServerOptions} {gr : Greeting} (h : ServerLink L tls g o gr (clientFull T) s V) :
    serverGiven V = streamDelivered (clientSide T) ∧ serverOutput V = streamOutput (clientSide T) := by
  rw [h.given, h.output, streamPart_clientFull]; exact ⟨rfl, rfl⟩

end ImapFlow

import Verif.Proofs.ProxyReceived
import Verif.Props.C76
import Verif.Props.C80
import Verif.Spec.ProxyTlsSamples

/-!
# C86: a peer cannot make the proxy hold arbitrarily many bytes that it has received

False of the code: a client that sends IDLE is listened to without limit until the server answers (`C86_idle`), and a server that does not
end its line is listened to without limit (`C86_line`).  What holds: while the proxy waits for a peer, it holds of what this peer sent
only one message that has not arrived completely, and with TLS less than a record (`C86_client_partial`,
`C86_server_partial`, `C86_greeting_partial`).
-/

namespace ImapFlow

open ClientSample (str ln)

/-- A client makes the proxy hold any number of bytes: it sends IDLE, which is passed on; the server has taken it, but does not answer, and
the proxy goes on to read from the client, one byte with each read.  The proxy has nothing to write. -/
theorem C86_idle (N : Nat) : ∃ (as : List ProxyAct) (c : FullStream Nat Server) (s : FullStream Nat Client) (T : List ProxyItem),
    ProxySample.run as = some (.conversation c s, T) ∧ (∀ b, .client (.read b) ∈ as → b.length ≤ 5) ∧
    c.ctl = .at .reading ∧ s.ctl = .at .reading ∧ c.writeBuffer = [] ∧ s.writeBuffer = [] ∧ N ≤ c.state.buffer.length := by
  obtain ⟨T, h⟩ := ProxyIdleSample.idle_run N
  refine ⟨_, _, _, T, h, ?_, rfl, rfl, rfl, rfl, ?_⟩
  · intro b hb
    simp only [ProxyIdleSample.acts, ProxySample.greet, List.mem_append, List.mem_cons, List.not_mem_nil, or_false, reduceCtorEq, false_or,
      ProxyAct.client.injEq, IoAct.read.injEq, List.mem_replicate] at hb
    rcases hb with rfl | ⟨-, rfl⟩ <;> decide
  · simp [ProxyIdleSample.waiting, Server.buffer, Server.rx]

/-- A server that does not end the line of its greeting makes the proxy hold everything it sends; for every codec, with every client. -/
theorem C86_line {K : Type} (L : Lib) (gc gs : HandleGenerator) (tc : Option (Tls K)) {bs : List Bytes}
    (hb : ∀ b ∈ bs, b ≠ [] ∧ LF ∉ b) :
    ∃ (s : FullStream K Client) (T : List ProxyItem),
      (Proxy.start tc none gc).run L gs (.server .poll :: bs.map fun b => .server (.read b)) = some (.greeting tc s, T) ∧
      s.ctl = .at .reading ∧ s.state.buffer = bs.flatten := by
  obtain ⟨c, T, h, h1, h2, h3⟩ := C80_line (K := K) L gc .default hb
  have e : (.callNext :: bs.map .read : List (StreamAct ClientOp)) = (IoAct.poll :: bs.map .read).map IoAct.toStream := by
    simp [IoAct.toStream, Function.comp_def]
  rw [e] at h
  refine ⟨c, T.map .ofServer, ?_, h1, h2⟩
  have := Proxy.greeting_run (L := L) (gs := gs) (tc := tc) h (by rw [h1]; nofun) (by rw [h1]; nofun) (by rw [h1]; nofun) h3
  simpa [Function.comp_def, Proxy.start, FullStream.new] using this

section
variable {K : Type} {L : Lib} {tc ts : Option (Tls K)} {gc gs : HandleGenerator} {as : List ProxyAct} {T : List ProxyItem}
  {c : FullStream K Server} {s : FullStream K Client}

/-- While the proxy waits for the client, nothing waits to be written to it, and everything that was read from it has been given to the
proxy's server, except for less than a record.  The server holds less than 25 MiB + 64 KiB, unless it has received IDLE and the proxy has
not called `idle_accept` or `idle_reject` since then.  With or without TLS; `r` is the maximal size of a record.

Partial: the condition about IDLE is needed (`C86_idle`). -/
theorem C86_client_partial (hL : L.Lawful) (hS : L.Speaks) (hP : L.Proxyable) {r : Nat} (ht : ∀ t, tc = some t → t.layer.Sized r ∧ t.Ready)
    (h : (Proxy.start tc ts gc).run L gs as = some (.conversation c s, T)) (hc : c.ctl = .at .reading) :
    c.writeBuffer = [] ∧ c.readBuffer = [] ∧ (∀ t, c.tls = some t → t.plain = [] ∧ t.raw.length < r) ∧
    (¬ IdleUnanswered (clientSide T) → c.state.buffer.length < 25 * 1024 * 1024 + 64 * 1024) := by
  obtain ⟨-, o, gr, V, U, hi⟩ := Proxy.run_inv hL hP h
  obtain ⟨as', h'⟩ := hi.client.run
  have ha : ∀ op, .user op ∈ as' → op ≠ .next ∧ ∀ b, op ≠ .enqueueInput b := by
    intro op hb
    have h1 := FullStream.run_called h' hb
    rw [streamPart_clientFull] at h1
    have h2 : op ∈ madeAnswers T := List.mem_filterMap.mpr ⟨_, h1, rfl⟩
    rw [(Proxy.run_ledger hL hP h (by nofun)).answers] at h2
    obtain ⟨e, -, h3⟩ := List.mem_filterMap.mp h2
    exact ClientEvent.answer_calls h3
  obtain ⟨h1, h2, h3, h4⟩ := C76_tls_waiting hS ht h' (fun b hb => (ha _ hb).2 b rfl) hc
  rw [proxyServerOptions_size hi.options] at h4
  refine ⟨h1, h2, h3, fun hn => h4 ?_⟩
  cases hw : c.state.idleWaits with
  | false => rfl
  | true =>
    have := C76_waits h' (by rw [hc]; nofun) (fun hb => (ha _ hb).1 rfl) hw
    rw [streamPart_clientFull] at this
    exact (hn this).elim

/-- While the proxy waits for the server, nothing waits to be written to it, and everything that was read from it has been given to the
proxy's client, except for less than a record.  The client holds only the beginning of one response.

Partial: the length of this response is not bounded (`C86_line`). -/
theorem C86_server_partial (hL : L.Lawful) (hP : L.Proxyable) {r : Nat} (ht : ∀ t, ts = some t → t.layer.Sized r ∧ t.Ready)
    (h : (Proxy.start tc ts gc).run L gs as = some (.conversation c s, T)) (hs : s.ctl = .at .reading) :
    s.writeBuffer = [] ∧ s.readBuffer = [] ∧ (∀ t, s.tls = some t → t.plain = [] ∧ t.raw.length < r) ∧
    IsUnfinished (responseFraming L false) s.state.buffer := by
  obtain ⟨-, o, gr, V, U, hi⟩ := Proxy.run_inv hL hP h
  obtain ⟨as', h'⟩ := hi.server.run
  have ha : ∀ op, .user op ∈ as' → op ≠ .next ∧ ∀ b, op ≠ .enqueueInput b := by
    intro op hb
    have h1 := FullStream.run_called h' hb
    rw [streamPart_serverFull] at h1
    have h2 : op ∈ madeCalls T := List.mem_filterMap.mpr ⟨_, h1, rfl⟩
    rw [(Proxy.run_ledger hL hP h (by nofun)).calls] at h2
    obtain ⟨e, -, h3⟩ := List.mem_filterMap.mp h2
    exact ServerEvent.passed_calls h3
  obtain ⟨h1, h2, h3, h4, -⟩ := C80_tls_partial hL ht h' hs
    ⟨fun hm => (ha _ hm).1 rfl, fun b hm => (ha _ hm).2 b rfl⟩
  refine ⟨h2, h1, h3, h4 ⟨gr, ?_⟩⟩
  obtain ⟨es, hes⟩ := hi.greeting
  rw [streamPart_serverFull]
  show _ ∈ serverEvents T
  rw [hes]
  exact List.mem_cons_self

/-- Before the greeting, the same is true; the proxy's client holds only the beginning of the greeting.

Partial: the length of the greeting is not bounded (`C86_line`). -/
theorem C86_greeting_partial (hL : L.Lawful) (hP : L.Proxyable) {r : Nat} (ht : ∀ t, ts = some t → t.layer.Sized r ∧ t.Ready)
    {tc' : Option (Tls K)} (h : (Proxy.start tc ts gc).run L gs as = some (.greeting tc' s, T)) (hs : s.ctl = .at .reading) :
    s.writeBuffer = [] ∧ s.readBuffer = [] ∧ (∀ t, s.tls = some t → t.plain = [] ∧ t.raw.length < r) ∧
    IsUnfinished (greetingFraming L false) s.state.buffer := by
  obtain ⟨-, U, hi⟩ := Proxy.run_inv hL hP h
  obtain ⟨as', h'⟩ := hi.server.run
  have ha : ∀ op, .user op ∉ as' := by
    intro op hb
    have h1 := FullStream.run_called h' hb
    rw [streamPart_serverFull] at h1
    have h2 : op ∈ streamCalls (serverSide T) := List.mem_filterMap.mpr ⟨_, h1, rfl⟩
    rw [hi.calls] at h2
    cases h2
  obtain ⟨h1, h2, h3, -, h4⟩ := C80_tls_partial hL ht h' hs ⟨ha _, fun b => ha _⟩
  refine ⟨h2, h1, h3, h4 ?_⟩
  rintro ⟨gr, hm⟩
  rw [streamPart_serverFull] at hm
  have : .greetingReceived gr ∈ serverEvents T := hm
  rw [hi.events] at this
  cases this

end

/-- A client that sends five bytes with IDLE and then bytes of which none ends a line. -/
example : (ProxySample.run (ProxyIdleSample.acts 3)).map (fun x => match x.1 with
    | .conversation c s => some (c.state.buffer, c.ctl, s.ctl)
    | _ => none) = some (some (str "xxx", .at .reading, .at .reading)) := by decide +kernel

/-- A server that does not end its greeting. -/
example : ∀ b ∈ [str "* OK", str " hello", [CR]], b ≠ [] ∧ LF ∉ b := by decide +kernel

set_option synthInstance.maxSize 4096 in
/-- With TLS on both connections: the client has sent the beginning of a command and of a record, and so has the server with a response;
the proxy waits for both.  Events after the greeting: none of them is IDLE. -/
example : (∀ t, some ProxyTlsSample.tc = some t → t.layer.Sized 253 ∧ t.Ready) ∧
    (∀ t, some ProxyTlsSample.ts = some t → t.layer.Sized 253 ∧ t.Ready) ∧
    (ProxyTlsSample.run (ProxyTlsSample.talk ++ [.client (.write 13), .client .poll, .client (.read ([3] ++ str "B C")),
        .client (.read ([9] ++ str "x")), .server .poll, .server (.read ([2] ++ str "*d" ++ [7, 1, 2]))])).map
      (fun x => match x.1 with
        | .conversation c s => some (c.ctl, c.state.buffer, tlsHolds c.tls, (streamEvents (clientSide x.2)).drop 1, s.ctl, s.state.buffer, tlsHolds s.tls)
        | _ => none) = some (some (.at .reading, str "B C", 2,
          [.commandReceived ⟨str "A", .other (str "z")⟩, .responseSent ⟨9, 0⟩ (.status (.tagged (str "A") ⟨.ok, none, str "done"⟩))], .at .reading, str "*d", 3)) :=
  ⟨by rintro t ⟨⟩; exact ⟨toyLayer_sized, rfl, rfl, by decide, rfl⟩,
   by rintro t ⟨⟩; exact ⟨toyLayer_sized, rfl, rfl, by decide, rfl⟩, by decide +kernel⟩

set_option synthInstance.maxSize 4096 in
/-- Before the greeting, with TLS: the beginning of the greeting and of a record has arrived. -/
example : (ProxyTlsSample.run [.server .poll, .server (.read (str "G[CRSQ]hi" ++ [13, 10].take 1 ++ str "a" ++ [4, 1]))]).map
      (fun x => match x.1 with
        | .greeting _ s => some (s.ctl, s.state.buffer, tlsHolds s.tls)
        | _ => none) = some (some (.at .reading, str "G[CRSQ]hi\ra", 2)) := by decide +kernel

end ImapFlow

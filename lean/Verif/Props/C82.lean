import Verif.Proofs.ProxyHeld
import Verif.Props.C41
import Verif.Props.C42
import Verif.Props.C80
import Verif.Spec.ProxyTlsSamples

/-!
# C82: a peer cannot make the proxy hold arbitrarily many bytes for the other peer

False of the code: the proxy goes on to read from one peer while the other one takes nothing (`C82_commands`, `C82_responses`).  It
does not hold more than it has to pass on, however (`C82_partial`, `C82_unwritten`, `C82_responses_unwritten`; with TLS
`C82_tls_unwritten`, `C82_tls_responses_unwritten`).
-/

namespace ImapFlow

open ClientSample (str ln)

namespace ProxyHeldSample

theorem commands_calm (n : Nat) : ∀ a ∈ commands n, a ∈ ProxySample.greet ∨ a = .client .poll ∨ a = .client (.read (ln "A Cz")) ∨
    a = .server .poll := by
  induction n with
  | zero => intro a ha; simp only [commands, List.mem_append, List.mem_cons, List.not_mem_nil, or_false] at ha; exact ha
  | succ n ih =>
    intro a ha
    simp only [commands, List.mem_append, List.mem_cons, List.not_mem_nil, or_false] at ha
    rcases ha with ha | ha | ha | ha | ha
    · exact ih a ha
    · exact .inr (.inl ha)
    · exact .inr (.inr (.inl ha))
    · exact .inr (.inr (.inr ha))
    · exact .inr (.inr (.inr ha))

theorem responses_calm (n : Nat) : ∃ as, responses n = ProxySample.greet ++ as ∧
    ∀ a ∈ as, a = .server .poll ∨ a = .server (.read (ln "*d")) ∨ a = .client .poll := by
  induction n with
  | zero => exact ⟨_, rfl, by intro a ha; simpa using ha⟩
  | succ n ih =>
    obtain ⟨as, h1, h2⟩ := ih
    refine ⟨as ++ [.server .poll, .server (.read (ln "*d")), .client .poll, .client .poll], ?_, ?_⟩
    · rw [responses, h1, List.append_assoc]
    · intro a ha
      simp only [List.mem_append, List.mem_cons, List.not_mem_nil, or_false] at ha
      rcases ha with ha | ha | ha | ha | ha
      · exact h2 a ha
      · exact .inl ha
      · exact .inr (.inl ha)
      · exact .inr (.inr ha)
      · exact .inr (.inr ha)

end ProxyHeldSample

/-- A client can make the proxy hold any number of bytes for the server: while the server takes nothing, the proxy goes on to read
commands (at most six bytes with each read), and is about to write all of them. -/
theorem C82_commands (N : Nat) : ∃ (as : List ProxyAct) (c : FullStream Nat Server) (s : FullStream Nat Client) (T : List ProxyItem),
    ProxySample.run as = some (.conversation c s, T) ∧ (∀ n, .server (.write n) ∉ as) ∧ (∀ b, .client (.read b) ∈ as → b.length ≤ 6) ∧
    c.writeBuffer = [] ∧ s.ctl = .at .racing ∧ N ≤ s.writeBuffer.length := by
  obtain ⟨g, h, w, T, h1, h2⟩ := ProxyHeldSample.commands_run N
  refine ⟨_, _, _, T, h1, ?_, ?_, rfl, rfl, by rw [h2]; omega⟩
  · intro n hn
    rcases ProxyHeldSample.commands_calm _ _ hn with h | h | h | h
    · simp [ProxySample.greet] at h
    all_goals cases h
  · intro b hb
    rcases ProxyHeldSample.commands_calm _ _ hb with h | h | h | h
    · simp [ProxySample.greet] at h
    · cases h
    · cases h; decide
    · cases h

/-- A server can make the proxy hold any number of bytes for the client, in the same way: after the greeting the client takes nothing. -/
theorem C82_responses (N : Nat) : ∃ (as : List ProxyAct) (c : FullStream Nat Server) (s : FullStream Nat Client) (T : List ProxyItem),
    ProxySample.run (ProxySample.greet ++ as) = some (.conversation c s, T) ∧ (∀ n, .client (.write n) ∉ as) ∧
    (∀ b, .server (.read b) ∈ as → b.length ≤ 4) ∧ s.writeBuffer = [] ∧ c.ctl = .at .racing ∧ N ≤ c.writeBuffer.length := by
  obtain ⟨g, h, w, T, h1, h2⟩ := ProxyHeldSample.responses_run N
  obtain ⟨as, h3, h4⟩ := ProxyHeldSample.responses_calm N
  rw [h3] at h1
  refine ⟨as, _, _, T, h1, ?_, ?_, rfl, rfl, by rw [h2]; omega⟩
  · intro n hn
    rcases h4 _ hn with h | h | h <;> cases h
  · intro b hb
    rcases h4 _ hb with h | h | h
    · cases h
    · cases h; decide
    · cases h

section
variable {K : Type} {L : Lib} {tc ts : Option (Tls K)} {gc gs : HandleGenerator} {as : List ProxyAct} {p : Proxy K} {T : List ProxyItem}

theorem wanted_calls (L : Lib) (S : List (StreamItem ClientError ClientEvent ClientOp)) :
    wanted L S = ((streamCalls S).map (ClientOp.wants L)).sum := by
  induction S with
  | nil => rfl
  | cons i S ih =>
    have e1 : wanted L (i :: S) = wanted L [i] + wanted L S := by simp [wanted]
    have e2 : streamCalls (i :: S) = streamCalls [i] ++ streamCalls S := by
      simp only [streamCalls, List.filterMap_cons, List.filterMap_nil]
      cases i.call? <;> rfl
    rw [e1, e2, ih, List.map_append, List.sum_append]
    congr 1
    cases i <;> rfl

theorem Proxy.run_due (hL : L.Lawful) (hP : L.Proxyable) (h : (Proxy.start tc ts gc).run L gs as = some (p, T)) :
    wanted L (serverSide T) ≤ ((dueCalls T).map (ClientOp.wants L)).sum := by
  rw [wanted_calls]
  show ((madeCalls T).map (ClientOp.wants L)).sum ≤ _
  by_cases hp : p = .dead
  · subst hp
    obtain ⟨c, s, o, gr, V, U, hi⟩ := Proxy.run_inv hL hP h
    rcases hi.cause with ⟨-, -, ⟨d, hd⟩, -⟩ | ⟨-, -, hd, -⟩
    · rw [hd]; simp
    · rw [hd]; exact Nat.le_refl _
  · rw [(Proxy.run_ledger hL hP h hp).calls]
    exact Nat.le_refl _

/-- The bytes handed out for the server are at most those of the commands, the authenticate data and the DONEs received from the client,
whatever the server does; with or without TLS.

Partial: what was received and not written is not bounded (`C82_commands`). -/
theorem C82_partial (hL : L.Lawful) (hP : L.Proxyable) (h : (Proxy.start tc ts gc).run L gs as = some (p, T)) :
    (streamOutput (serverSide T)).length ≤ ((dueCalls T).map (ClientOp.wants L)).sum := by
  obtain ⟨s, U, hl⟩ := Proxy.run_server hL hP h
  obtain ⟨as', h'⟩ := hl.run
  refine Nat.le_trans ?_ (Proxy.run_due hL hP h)
  rw [← streamPart_serverFull]
  cases ts with
  | none => exact C80_output h'
  | some t => exact C80_output h'

/-- So what was written to the server and what waits to be written to it is bounded by what was received from the client. -/
theorem C82_unwritten {c : FullStream K Server} {s : FullStream K Client} (hL : L.Lawful) (hP : L.Proxyable)
    (h : (Proxy.start tc none gc).run L gs as = some (.conversation c s, T)) :
    (streamWrote (serverSide T)).length + s.writeBuffer.length ≤ ((dueCalls T).map (ClientOp.wants L)).sum := by
  obtain ⟨-, o, gr, V, U, hi⟩ := Proxy.run_inv hL hP h
  obtain ⟨as', h'⟩ := hi.server.run
  refine Nat.le_trans ?_ (Proxy.run_due hL hP h)
  rw [← streamPart_serverFull]
  exact C80_written h'

/-- The same with or without TLS, up to the growth of records. -/
theorem C82_tls_unwritten {c : FullStream K Server} {s : FullStream K Client} (hL : L.Lawful) (hP : L.Proxyable) {f : Nat} (hf : 0 < f)
    (ht : ∀ t, ts = some t → t.layer.Grows f ∧ t.sendable = [])
    (h : (Proxy.start tc ts gc).run L gs as = some (.conversation c s, T)) :
    (streamWrote (serverSide T)).length + s.writeBuffer.length + s.waiting.length ≤
      f * ((dueCalls T).map (ClientOp.wants L)).sum := by
  obtain ⟨-, o, gr, V, U, hi⟩ := Proxy.run_inv hL hP h
  obtain ⟨as', h'⟩ := hi.server.run
  refine Nat.le_trans ?_ (Nat.mul_le_mul_left f (Proxy.run_due hL hP h))
  rw [← streamPart_serverFull]
  exact C80_tls_written hf ht h'

/-- What was written to the client and what waits to be written to it is the greeting, followed by responses; each of them was received
from the server, or answers the announcement of a literal. -/
theorem C82_responses_unwritten {c : FullStream K Server} {s : FullStream K Client} (hL : L.Lawful) (hP : L.Proxyable)
    (h : (Proxy.start none ts gc).run L gs as = some (.conversation c s, T)) :
    streamWrote (clientSide T) ++ c.writeBuffer = [] ∨
    ∃ gr ms n, (streamEvents (serverSide T)).head? = some (.greetingReceived gr) ∧
      ms.filterMap ServerMessage.user? = (streamEvents (serverSide T)).filterMap ClientEvent.forwarded ∧
      (∀ m ∈ ms, m.user? = none → ∃ r, m = .response none r ∧ OwnReply r) ∧ n ≤ ms.length + 1 ∧
      streamWrote (clientSide T) ++ c.writeBuffer = ((.greeting gr.restrict :: ms).take n).flatMap (ServerMessage.bytes L) := by
  obtain ⟨-, o, gr, V, U, hi⟩ := Proxy.run_inv hL hP h
  obtain ⟨as', h'⟩ := hi.client.run
  have hw := FullStream.run_wrote h'
  rw [streamPart_clientFull] at hw
  rw [hw, ← C42_partial hL hP h (by simp)]
  exact C42_wire hL hP h

/-- The same with or without TLS: what was written to the client, what waits to be written to it and what waits in the TLS connection is
not longer than the greeting and such responses, up to the growth of records. -/
theorem C82_tls_responses_unwritten {c : FullStream K Server} {s : FullStream K Client} (hL : L.Lawful) (hP : L.Proxyable) {f : Nat}
    (hf : 0 < f) (ht : ∀ t, tc = some t → t.layer.Grows f ∧ t.sendable = [])
    (h : (Proxy.start tc ts gc).run L gs as = some (.conversation c s, T)) :
    (streamWrote (clientSide T) = [] ∧ c.writeBuffer = [] ∧ c.waiting = []) ∨
    ∃ gr ms n, (streamEvents (serverSide T)).head? = some (.greetingReceived gr) ∧
      ms.filterMap ServerMessage.user? = (streamEvents (serverSide T)).filterMap ClientEvent.forwarded ∧
      (∀ m ∈ ms, m.user? = none → ∃ r, m = .response none r ∧ OwnReply r) ∧ n ≤ ms.length + 1 ∧
      (streamWrote (clientSide T)).length + c.writeBuffer.length + c.waiting.length ≤
        f * (((.greeting gr.restrict :: ms).take n).flatMap (ServerMessage.bytes L)).length := by
  obtain ⟨-, o, gr, V, U, hi⟩ := Proxy.run_inv hL hP h
  obtain ⟨as', h'⟩ := hi.client.run
  have e : FullStream.new tc (Server.new gs o gr.restrict) = ⟨tc, [], [], Server.new gs o gr.restrict, .at .idle⟩ := by
    cases tc <;> rfl
  have hp : (FullStream.new tc (Server.new gs o gr.restrict)).pending = [] := by
    cases tc with
    | none => rfl
    | some t => simp [FullStream.pending, FullStream.waiting, FullStream.new, FullStream.secure, (ht t rfl).2]
  have hw := FullStream.run_grows (f := f) h' ⟨hf, fun t hx => (ht t (by rwa [e] at hx)).1⟩
  rw [streamPart_clientFull, hp] at hw
  simp only [FullStream.pending, List.length_append, List.length_nil] at hw
  rw [← C42_partial hL hP h (by simp)]
  rcases C42_wire hL hP h with h1 | ⟨gr, ms, n, h1, h2, h3, h4, h5⟩
  · left
    rw [h1, List.length_nil, Nat.mul_zero] at hw
    exact ⟨List.length_eq_zero_iff.1 (by omega), List.length_eq_zero_iff.1 (by omega), List.length_eq_zero_iff.1 (by omega)⟩
  · right
    refine ⟨gr, ms, n, h1, h2, h3, h4, ?_⟩
    rw [← h5]
    omega

end

/-- Three commands: the server takes nothing, and all of them wait to be written. -/
example : ∃ p T, ProxySample.run (ProxyHeldSample.commands 2) = some (p, T) ∧ streamWrote (serverSide T) = [] ∧
    dueCalls T = List.replicate 3 (.enqueueCommand ProxyHeldSample.cmd) ∧ ((dueCalls T).map (ClientOp.wants Toy.lib)).sum = 18 := by
  have h : (ProxySample.run (ProxyHeldSample.commands 2)).map (fun x => (streamWrote (serverSide x.2), dueCalls x.2,
      ((dueCalls x.2).map (ClientOp.wants Toy.lib)).sum)) =
      some ([], List.replicate 3 (.enqueueCommand ProxyHeldSample.cmd), 18) := by decide +kernel
  rw [Option.map_eq_some_iff] at h
  obtain ⟨⟨p, T⟩, h1, h2⟩ := h
  simp only [Prod.mk.injEq] at h2
  exact ⟨p, T, h1, h2⟩

/-- With TLS on both connections: a command of 6 bytes was written to the server in 12 bytes of records. -/
example : ∃ c s T, ProxyTlsSample.run ProxyTlsSample.talk = some (.conversation c s, T) ∧
    (∀ t, some ProxyTlsSample.ts = some t → t.layer.Grows 2 ∧ t.sendable = []) ∧
    (∀ t, some ProxyTlsSample.tc = some t → t.layer.Grows 2 ∧ t.sendable = []) ∧
    (streamWrote (serverSide T)).length = 12 ∧ receivedCommands T = [⟨ClientSample.str "A", .other (ClientSample.str "z")⟩] := by
  obtain ⟨c, s, T, h, -, -, h3, h4, -⟩ := ProxyTlsSample.run_talk
  refine ⟨c, s, T, h, ?_, ?_, by rw [h3]; decide +kernel, h4⟩
  · rintro t ⟨⟩; exact ⟨toyLayer_grows, rfl⟩
  · rintro t ⟨⟩; exact ⟨toyLayer_grows, rfl⟩

end ImapFlow

import Verif.Proofs.ClientReads
import Verif.Spec.ClientSamples
import Verif.Proofs.ServerReads
import Verif.Spec.ServerSamples

/-!
# C03: every received byte is accounted for exactly once and in order
-/

namespace ImapFlow

/-- Everything passed to `enqueue_input` is, in order, the bytes of the reported messages, silently
handled continuation requests and errors, followed by the bytes still buffered. -/
theorem C03_client_accounting {L : Lib} (hL : L.Lawful) {g : HandleGenerator} {o : ClientOptions}
    {ops : List ClientOp} {c : Client} {T : List CItem}
    (h : (Client.new g o).trace L ops = .ok (c, T)) :
    clientGiven T = clientTaken T ++ c.buffer := by
  have hi := Client.trace_inv hL h
  rw [← hi.unread]
  exact Client.given_eq hi

/-- The bytes attributed to a reported message are an encoding of exactly this message: decoding
them yields it and leaves nothing over. -/
theorem C03_client_message_bytes {L : Lib} (hL : L.Lawful) {g : HandleGenerator} {o : ClientOptions}
    {ops : List ClientOp} {c : Client} {T1 T2 : List CItem} {w : Bytes} {e : ClientEvent}
    (h : (Client.new g o).trace L ops = .ok (c, T1 ++ .received w e :: T2)) :
    (∃ gr, e = .greetingReceived gr ∧ L.decodeGreeting w = .ok ([], gr)) ∨
    (∃ r, (ClientView.of T1).route r = some e ∧ L.decodeResponse w = .ok ([], r)) := by
  obtain ⟨-, -, ⟨-, gr, h1, p, l, -, -, -, -, h2⟩ | ⟨-, r, h1, p, l, -, -, -, -, h2⟩⟩ :=
    Client.trace_guard hL h
  · exact .inl ⟨gr, h1, h2⟩
  · exact .inr ⟨r, h1, h2⟩

/-- A history with a greeting, a bare LF line, an undecodable line, a literal and a partial line. -/
example : ∃ c, (Client.new ClientSample.g .default).trace Toy.lib ClientSample.badOps =
      .ok (c, ClientSample.badTrace) ∧
    clientTaken ClientSample.badTrace ++ ClientSample.str "*y" = clientGiven ClientSample.badTrace := by
  obtain ⟨c, h⟩ := ClientSample.bad_run
  exact ⟨c, h, by decide +kernel⟩

/-- Server: everything passed to `enqueue_input` is, in order, the bytes of the reported messages and
errors, followed by the bytes still buffered. -/
theorem C03_server_accounting {L : Lib} {g : HandleGenerator} {o : ServerOptions} {gr : Greeting}
    {ops : List ServerOp} {s : Server} {T : List SItem}
    (h : (Server.new g o gr).trace L ops = .ok (s, T)) :
    serverGiven T = serverTaken T ++ s.buffer := by
  have hi := Server.trace_inv h
  rw [← hi.unread]
  exact Server.given_eq hi

/-- The bytes attributed to a reported message are an encoding of exactly this message. -/
theorem C03_server_message_bytes {L : Lib} {g : HandleGenerator} {o : ServerOptions} {gr : Greeting}
    {ops : List ServerOp} {s : Server} {T1 T2 : List SItem} {w : Bytes} {e : ServerEvent}
    (h : (Server.new g o gr).trace L ops = .ok (s, T1 ++ .received w e :: T2)) :
    (∃ c, e = c.event ∧ L.decodeCommand w = .ok ([], c)) ∨
    (∃ d, e = .authenticateDataReceived d ∧ L.decodeAuthenticateData w = .ok ([], d)) ∨
    (e = .idleDoneReceived ∧ L.decodeIdleDone w = .ok ([], ())) := by
  obtain ⟨-, -, -, ht, -⟩ := Server.trace_guard h
  unfold Taken at ht
  split at ht
  · obtain ⟨c, ⟨p, l, -, -, -, -, hd⟩, rfl⟩ := ht
    exact .inl ⟨c, rfl, hd⟩
  · obtain ⟨d, ⟨p, l, -, -, -, -, hd⟩, rfl⟩ := ht
    exact .inr (.inl ⟨d, rfl, hd⟩)
  · exact ht.elim
  · obtain ⟨⟨p, l, -, -, -, -, hd⟩, rfl⟩ := ht
    exact .inr (.inr ⟨rfl, hd⟩)

/-- A history with literals, every kind of error and a partial line, and one that goes through all
phases. -/
example : (∃ s, (Server.new ClientSample.g ServerSample.options ServerSample.greeting).trace Toy.lib
      ServerSample.commandOps = .ok (s, ServerSample.commandTrace)) ∧
    serverTaken ServerSample.commandTrace ++ ClientSample.str "G" = serverGiven ServerSample.commandTrace ∧
    (∃ s, (Server.new ClientSample.g ServerSample.options ServerSample.greeting).trace Toy.lib
      ServerSample.authIdleOps = .ok (s, ServerSample.authIdleTrace)) ∧
    serverTaken ServerSample.authIdleTrace = serverGiven ServerSample.authIdleTrace :=
  ⟨ServerSample.command_run, by decide +kernel, ServerSample.authIdle_run, by decide +kernel⟩

end ImapFlow

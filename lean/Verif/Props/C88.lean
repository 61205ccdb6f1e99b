import Verif.Proofs.ReserveProxy
import Verif.Proofs.SearchClient
import Verif.Spec.ServerSamples
import Verif.Spec.ProxySamples

/-!
# C88: the search for line ends does not depend on how the input is cut

Input may arrive byte by byte, and `next` may be called after each.  Every search goes on where the last one ended
(`/repo/src/receive.rs:88-96`), so the client looks at every received byte at most once.  The server looks at every
byte at most twice: when authentication is finished in the middle of a line, `change_codec`
(`/repo/src/receive.rs:170-177`) forgets how far that line was searched.
-/

namespace ImapFlow

open ClientSample (str ln g)

variable {L : Lib} {g : HandleGenerator} {o : ServerOptions} {gr : Greeting}

/-- The client looks at every received byte at most once. -/
theorem C88_client {o : ClientOptions} {ops : List ClientOp} {c : Client} {T : List CItem}
    (h : (Client.new g o).trace L ops = .ok (c, T)) :
    (Client.new g o).searchedCalls L ops ≤ (clientGiven T).length :=
  Client.searched_le h

/-- The server looks at every received byte at most twice. -/
theorem C88_server {ops : List ServerOp} {s : Server} {T : List SItem}
    (h : (Server.new g o gr).trace L ops = .ok (s, T)) :
    (Server.new g o gr).searchedCalls L ops ≤ 2 * (serverGiven T).length :=
  Server.searched_le (.inr rfl) h (by omega)

/-- And at most once if no authentication was finished. -/
theorem C88_server_once {ops : List ServerOp} {s : Server} {T : List SItem}
    (h : (Server.new g o gr).trace L ops = .ok (s, T)) (hf : ∀ status hd, .authFinish status (.ok hd) ∉ T) :
    (Server.new g o gr).searchedCalls L ops ≤ (serverGiven T).length := by
  have := Server.searched_le (.inl rfl) h fun _ => hf
  omega

/-- Authentication finished in the middle of a line: its 3 bytes are searched twice. -/
theorem C88_server_again : ∃ ops s T,
    (Server.new ClientSample.g ServerSample.options ServerSample.greeting).trace Toy.lib ops = .ok (s, T) ∧
    (serverGiven T).length = 8 ∧
    (Server.new ClientSample.g ServerSample.options ServerSample.greeting).searchedCalls Toy.lib ops = 11 := by
  have h : ((Server.new ClientSample.g ServerSample.options ServerSample.greeting).trace Toy.lib
      [.next, .next, .enqueueInput (ln "A A"), .next, .enqueueInput (str "B C"), .next,
        .authenticateFinish (.tagged (str "A") ⟨.ok, none, str "in"⟩), .next, .next, .next]).toOption.map
        (fun x => (serverGiven x.2).length) = some 8 := by decide +kernel
  cases hx : (Server.new ClientSample.g ServerSample.options ServerSample.greeting).trace Toy.lib
      [.next, .next, .enqueueInput (ln "A A"), .next, .enqueueInput (str "B C"), .next,
        .authenticateFinish (.tagged (str "A") ⟨.ok, none, str "in"⟩), .next, .next, .next] with
  | error p => rw [hx] at h; cases h
  | ok x =>
    rw [hx] at h
    exact ⟨_, x.1, x.2, hx, by simpa [Except.toOption] using h, by decide +kernel⟩

/-- What is counted is all that the search depends on, together with the byte before: the others make no difference. -/
theorem C88_looked {buf buf' : Bytes} {start : Nat} {relaxed : Bool} (hlen : buf'.length = buf.length)
    (h : ∀ i, start ≤ i + 1 → i < start + lookedAt buf start → buf'[i]? = buf[i]?) :
    findCrlf buf' start relaxed = findCrlf buf start relaxed :=
  findCrlf_looked hlen h

/-- LF before the start and behind the line end that is found. -/
example : findCrlf (str "\nbc" ++ ln "d" ++ str "\n\n") 3 false = findCrlf (str "abc" ++ ln "d" ++ str "ef") 3 false ∧
    lookedAt (str "abc" ++ ln "d" ++ str "ef") 3 = 3 := by
  refine ⟨C88_looked (by decide) fun i h1 h2 => ?_, by decide⟩
  have h3 : i < 6 := h2
  match i, h1, h3 with
  | 2, _, _ => rfl
  | 3, _, _ => rfl
  | 4, _, _ => rfl
  | 5, _, _ => rfl

/-- Commands with literals, malformed lines and a command that is too long. -/
example : ∃ s, (Server.new ClientSample.g ServerSample.options ServerSample.greeting).trace Toy.lib
      ServerSample.commandOps = .ok (s, ServerSample.commandTrace) ∧
    (∀ status hd, .authFinish status (.ok hd) ∉ ServerSample.commandTrace) ∧
    (Server.new ClientSample.g ServerSample.options ServerSample.greeting).searchedCalls Toy.lib
      ServerSample.commandOps = 107 ∧ (serverGiven ServerSample.commandTrace).length = 112 := by
  obtain ⟨s, h⟩ := ServerSample.command_run
  refine ⟨s, h, ?_, by decide +kernel, by decide +kernel⟩
  intro status hd hm
  simp [ServerSample.commandTrace] at hm

/-- AUTHENTICATE and IDLE. -/
example : ∃ s, (Server.new ClientSample.g ServerSample.options ServerSample.greeting).trace Toy.lib
      ServerSample.authIdleOps = .ok (s, ServerSample.authIdleTrace) ∧
    0 < (Server.new ClientSample.g ServerSample.options ServerSample.greeting).searchedCalls Toy.lib
      ServerSample.authIdleOps := by
  obtain ⟨s, h⟩ := ServerSample.authIdle_run
  exact ⟨s, h, by decide +kernel⟩

/-- A line byte by byte: the server looks at its 23 bytes once. -/
example : (Server.new ClientSample.g ServerSample.options ServerSample.greeting).searchedCalls Toy.lib
    ([.next, .next] ++ serverByteByByte (ln "A Clong line of bytes")) = 23 := by decide +kernel

/-- The greeting and a response byte by byte. -/
example : (Client.new ClientSample.g .default).searchedCalls Toy.lib
    (clientByteByByte (ln "Ghello" ++ ln "Dsome data")) = 20 := by decide +kernel

/-- Responses with literals. -/
example : ∃ c, (Client.new ClientSample.g .default).trace Toy.lib ClientSample.literalOps =
      .ok (c, ClientSample.literalTrace) ∧
    0 < (Client.new ClientSample.g .default).searchedCalls Toy.lib ClientSample.literalOps := by
  obtain ⟨c, h⟩ := ClientSample.literal_run
  exact ⟨c, h, by decide +kernel⟩

/-! ## The proxy -/

section
variable {K : Type} {tc ts : Option (Tls K)} {gc gs : HandleGenerator} {as : List ProxyAct} {T : List ProxyItem}
  {p : Proxy K}

/-- The proxy looks at every byte from a client at most twice. -/
theorem C88_proxy_client (hL : L.Lawful) (hP : L.Proxyable) (h : (Proxy.start tc ts gc).run L gs as = some (p, T))
    (ho : proxyServerOptions L = .ok o) (hg : (streamEvents (serverSide T)).head? = some (.greetingReceived gr)) :
    (Server.new gs o gr.restrict).searchedCalls L (serverOps (clientSide T)) ≤ 2 * (streamDelivered (clientSide T)).length := by
  obtain ⟨c, W, h2, h3⟩ := Proxy.run_client_ops hL hP h ho hg
  have := C88_server h2
  rwa [h3] at this

/-- The proxy looks at every byte from the server at most once. -/
theorem C88_proxy_server (hL : L.Lawful) (hP : L.Proxyable) (h : (Proxy.start tc ts gc).run L gs as = some (p, T)) :
    (Client.new gc .default).searchedCalls L (clientOps (serverSide T)) ≤ (streamDelivered (serverSide T)).length := by
  obtain ⟨c, W, h2, h3⟩ := Proxy.run_server_ops hL hP h
  have := C88_client h2
  rwa [h3] at this

end

/-- A conversation with a literal, AUTHENTICATE and IDLE: 80 bytes from the server and 28 from the client. -/
example : ∃ p T o gr, ProxySample.run ProxySample.talk = some (p, T) ∧ proxyServerOptions Toy.lib = .ok o ∧
    (streamEvents (serverSide T)).head? = some (.greetingReceived gr) ∧
    (Client.new ClientSample.g .default).searchedCalls Toy.lib (clientOps (serverSide T)) = 80 ∧
    (streamDelivered (serverSide T)).length = 80 ∧
    (Server.new ProxySample.gs o gr.restrict).searchedCalls Toy.lib (serverOps (clientSide T)) = 26 ∧
    (streamDelivered (clientSide T)).length = 28 := by
  have h : (ProxySample.run ProxySample.talk).map (fun x =>
      ((Client.new ClientSample.g .default).searchedCalls Toy.lib (clientOps (serverSide x.2)),
        (streamDelivered (serverSide x.2)).length, (streamDelivered (clientSide x.2)).length,
        match proxyServerOptions Toy.lib, (streamEvents (serverSide x.2)).head? with
        | .ok o, some (.greetingReceived gr) =>
          some ((Server.new ProxySample.gs o gr.restrict).searchedCalls Toy.lib (serverOps (clientSide x.2)))
        | _, _ => none)) = some (80, 80, 28, some 26) := by decide +kernel
  obtain ⟨⟨p, T⟩, h1, h2⟩ := ProxySample.of_map h
  simp only [Prod.mk.injEq] at h2
  obtain ⟨h2, h3, h4, h5⟩ := h2
  split at h5
  · next o gr e1 e2 => exact ⟨p, T, o, gr, h1, e1, e2, h2, h3, Option.some.inj h5, h4⟩
  · cases h5

end ImapFlow

import Verif.Proofs.ReserveProxy
import Verif.Spec.ServerSamples
import Verif.Spec.Imap
import Verif.Spec.ProxySamples

/-!
# C89: a peer cannot make the library ask for much more memory than it has sent

False of the client: memory for a literal is asked for when it is announced (`/repo/src/receive.rs:46-49`), and the
client accepts every length (`/repo/src/client.rs:144-150`).  True of the server, because it checks the length first.
-/

namespace ImapFlow

open ClientSample (str ln)

variable {L : Lib} {g : HandleGenerator}

/-- A server never asks for more than `max_literal_size` bytes beyond what it has received. -/
theorem C89_server {o : ServerOptions} {gr : Greeting} {ops : List ServerOp} {s : Server} {T : List SItem}
    (h : (Server.new g o gr).trace L ops = .ok (s, T)) {n : Nat} (hn : n ∈ (Server.new g o gr).reserves L ops) :
    n ≤ (serverGiven T).length + o.maxLiteralSize := by
  have h0 : Searching 2 0 0 (Server.new g o gr).receiveState := .command_new (Nat.le_refl _) rfl rfl (Nat.zero_le _)
  have := Server.trace_reserves h0 h n hn
  rwa [Nat.zero_add] at this

/-- Three literals of the sample. -/
example : ∃ s, (Server.new ClientSample.g ServerSample.options ServerSample.greeting).trace Toy.lib
      ServerSample.commandOps = .ok (s, ServerSample.commandTrace) ∧
    (Server.new ClientSample.g ServerSample.options ServerSample.greeting).reserves Toy.lib
      ServerSample.commandOps = [8, 14, 20] := by
  obtain ⟨s, h⟩ := ServerSample.command_run
  exact ⟨s, h, by decide +kernel⟩

namespace C89Sample

/-- A greeting, and a response that announces a literal of almost 4 GiB. -/
def ops : List ClientOp :=
  [.enqueueInput (ln "* OK hi"), .next, .enqueueInput (ln "* 1 FETCH (BODY[] {4294967295}"), .next]

end C89Sample

/-- A server that has sent 41 bytes makes the client ask for almost 4 GiB. -/
theorem C89_false : ∃ c T, (Client.new ClientSample.g .default).trace Imap.lib C89Sample.ops = .ok (c, T) ∧
    (clientGiven T).length = 41 ∧
    (Client.new ClientSample.g .default).reserves Imap.lib C89Sample.ops = [32 + 4294967295] := by
  have h : ((Client.new ClientSample.g .default).trace Imap.lib C89Sample.ops).toOption.map
      (fun x => (clientGiven x.2).length) = some 41 := by decide +kernel
  cases hx : (Client.new ClientSample.g .default).trace Imap.lib C89Sample.ops with
  | error p => rw [hx] at h; cases h
  | ok x =>
    rw [hx] at h
    exact ⟨x.1, x.2, rfl, by simpa [Except.toOption] using h, by decide +kernel⟩

/-- What holds: a client never asks for more than the longest literal that its decoder can find beyond what it has
received.  Missing: a limit that does not depend on what the server announces, see `C89_false`. -/
theorem C89_client_partial {N : Nat} (hN : L.Announces N) {o : ClientOptions} {ops : List ClientOp} {c : Client}
    {T : List CItem} (h : (Client.new g o).trace L ops = .ok (c, T)) {n : Nat}
    (hn : n ∈ (Client.new g o).reserves L ops) : n ≤ (clientGiven T).length + N := by
  have h0 : Client.Once 0 0 (Client.new g o) := ⟨Nat.le_refl _, Nat.zero_le _, Nat.zero_le _⟩
  have := Client.trace_reserves hN h0 h n hn
  rwa [Nat.zero_add] at this

/-- The lengths of literals are 32-bit numbers. -/
example : Imap.lib.Announces 4294967295 ∧ 32 + 4294967295 ∈ (Client.new ClientSample.g .default).reserves Imap.lib C89Sample.ops := by
  obtain ⟨c, T, -, -, h⟩ := C89_false
  exact ⟨Imap.announces, by rw [h]; exact List.mem_singleton.mpr rfl⟩

/-! ## The proxy

The proxy's server and its client make the calls that are recorded in the run. -/

section
variable {K : Type} {tc ts : Option (Tls K)} {gc gs : HandleGenerator} {as : List ProxyAct} {T : List ProxyItem}
  {p : Proxy K}

/-- A client of the proxy cannot make it ask for more than 25 MiB beyond what it has sent. -/
theorem C89_proxy_client (hL : L.Lawful) (hP : L.Proxyable) (h : (Proxy.start tc ts gc).run L gs as = some (p, T))
    {o : ServerOptions} {gr : Greeting} (ho : proxyServerOptions L = .ok o)
    (hg : (streamEvents (serverSide T)).head? = some (.greetingReceived gr)) {n : Nat}
    (hn : n ∈ (Server.new gs o gr.restrict).reserves L (serverOps (clientSide T))) :
    n ≤ (streamDelivered (clientSide T)).length + 25 * 1024 * 1024 := by
  obtain ⟨c, W, h2, h3⟩ := Proxy.run_client_ops hL hP h ho hg
  have := C89_server h2 hn
  rwa [h3, proxyServerOptions_literal ho] at this

/-- What holds for the server behind the proxy: it cannot make the proxy ask for more than the longest literal that the decoder
can find beyond what it has sent.  Missing: a limit of the proxy, see `C89_proxy_false`. -/
theorem C89_proxy_server_partial (hL : L.Lawful) (hP : L.Proxyable) {N : Nat} (hN : L.Announces N)
    (h : (Proxy.start tc ts gc).run L gs as = some (p, T)) {n : Nat}
    (hn : n ∈ (Client.new gc .default).reserves L (clientOps (serverSide T))) :
    n ≤ (streamDelivered (serverSide T)).length + N := by
  obtain ⟨c, W, h2, h3⟩ := Proxy.run_server_ops hL hP h
  have := C89_client_partial hN h2 hn
  rwa [h3] at this

end

namespace C89Sample

/-- The proxy receives the greeting and a response that announces a literal of almost 4 GiB, and from the client a command that
announces a literal of 25 MiB. -/
def acts : List ProxyAct :=
  [.server .poll, .server (.read (ln "* OK hi")), .client .poll, .client (.write 9), .client .poll, .server .poll,
   .server (.read (ln "* 1 FETCH (BODY[] {4294967295}")), .client (.read (ln "A1 APPEND inbox {26214400}"))]

/-- What the proxy's server asked for. -/
def asked (T : List ProxyItem) : Option (List Nat) :=
  match proxyServerOptions Imap.lib, (streamEvents (serverSide T)).head? with
  | .ok o, some (.greetingReceived gr) =>
    some ((Server.new ProxySample.gs o gr.restrict).reserves Imap.lib (serverOps (clientSide T)))
  | _, _ => none

theorem asked_some {T : List ProxyItem} {ns : List Nat} (h : asked T = some ns) :
    ∃ o gr, proxyServerOptions Imap.lib = .ok o ∧ (streamEvents (serverSide T)).head? = some (.greetingReceived gr) ∧
      (Server.new ProxySample.gs o gr.restrict).reserves Imap.lib (serverOps (clientSide T)) = ns := by
  unfold asked at h
  split at h
  · next o gr h1 h2 => exact ⟨o, gr, h1, h2, Option.some.inj h⟩
  · cases h

end C89Sample

/-- A server that has sent 41 bytes makes the proxy ask for almost 4 GiB.  A client that has sent 28 bytes makes it ask for 25 MiB. -/
theorem C89_proxy_false : ∃ c s T, (Proxy.start (K := Nat) none none ClientSample.g).run Imap.lib ProxySample.gs C89Sample.acts =
      some (.conversation c s, T) ∧
    (streamDelivered (serverSide T)).length = 41 ∧
    (Client.new ClientSample.g .default).reserves Imap.lib (clientOps (serverSide T)) = [32 + 4294967295] ∧
    (streamDelivered (clientSide T)).length = 28 ∧
    ∃ o gr, proxyServerOptions Imap.lib = .ok o ∧ (streamEvents (serverSide T)).head? = some (.greetingReceived gr) ∧
      (Server.new ProxySample.gs o gr.restrict).reserves Imap.lib (serverOps (clientSide T)) = [28 + 25 * 1024 * 1024] := by
  have h : ((Proxy.start (K := Nat) none none ClientSample.g).run Imap.lib ProxySample.gs C89Sample.acts).map (fun x =>
      (ProxySample.stage x.1, (streamDelivered (serverSide x.2)).length,
        (Client.new ClientSample.g .default).reserves Imap.lib (clientOps (serverSide x.2)),
        (streamDelivered (clientSide x.2)).length, C89Sample.asked x.2)) =
      some (.conversation, 41, [32 + 4294967295], 28, some [28 + 25 * 1024 * 1024]) := by decide +kernel
  obtain ⟨⟨p, T⟩, h1, h2⟩ := ProxySample.of_map h
  simp only [Prod.mk.injEq] at h2
  obtain ⟨h2, h3, h4, h5, h6⟩ := h2
  cases p with
  | conversation c s => exact ⟨c, s, T, h1, h3, h4, h5, C89Sample.asked_some h6⟩
  | _ => cases h2

end ImapFlow

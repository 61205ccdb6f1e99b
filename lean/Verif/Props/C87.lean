import Verif.Proofs.WorkDecoder
import Verif.Proofs.WorkClient
import Verif.Proofs.ReserveProxy
import Verif.Spec.ServerSamples
import Verif.Spec.ProxySamples

/-!
# C87: the decoder is given each received byte only once

False of the code: after every line the current command is decoded again from its start
(`/repo/src/receive.rs:121-125`), so a command that announces many literals costs quadratic work.  What holds: the
decoder is called at most once per line end received, never with more than the limit for commands, and without
literals no byte is given to it twice.
-/

namespace ImapFlow

variable {L : Lib} {g : HandleGenerator} {o : ServerOptions} {gr : Greeting} {ops : List ServerOp} {s : Server}
  {T : List SItem}

/-- The attempts are all that the decoders are used for: other decoders with the same answers to them make no
difference. -/
theorem C87_decoder (h : (Server.new g o gr).trace L ops = .ok (s, T)) {cmd : Decoder CommandDecodeError Command}
    {auth : Decoder SimpleDecodeError AuthenticateData} {idle : Decoder SimpleDecodeError Unit}
    (ha : ∀ w ∈ attempts T, L.Agree cmd auth idle w) :
    (Server.new g o gr).trace (L.decodeWith cmd auth idle) ops = .ok (s, T) :=
  Server.trace_agree h ha

/-- Decoders that fail on everything longer than the longest attempt. -/
example : ∃ s, (Server.new ClientSample.g ServerSample.options ServerSample.greeting).trace
    (Toy.lib.decodeWith (fun i => if i.length ≤ 17 then Toy.lib.decodeCommand i else .error .failed)
      (fun i => if i.length ≤ 17 then Toy.lib.decodeAuthenticateData i else .error .failed)
      (fun i => if i.length ≤ 17 then Toy.lib.decodeIdleDone i else .error .failed))
    ServerSample.commandOps = .ok (s, ServerSample.commandTrace) := by
  obtain ⟨s, h⟩ := ServerSample.command_run
  refine ⟨s, C87_decoder h fun w hw => ?_⟩
  have hl : ∀ w ∈ attempts ServerSample.commandTrace, w.length ≤ 17 := by decide +kernel
  simp only [Lib.Agree, if_pos (hl w hw), and_self]

/-- `n` lines of 5 bytes, the beginning of a single command, cost 5 · n · (n + 1) / 2 bytes to decode. -/
theorem C87_quadratic {n : Nat} (hn : 5 * n < o.maxCommandSize) :
    ∃ s T, (Server.new g o gr).trace Toy.lib (emptyLiteralOps n) = .ok (s, T) ∧ (serverGiven T).length = 5 * n ∧
      serverTaken T = [] ∧ 2 * decodedBytes T = 5 * n * (n + 1) := by
  obtain ⟨T, h1, h2, h3, h4⟩ := EmptyLiterals.trace (g := g) (gr := gr) hn
  refine ⟨_, T, h1, by rw [h3, emptyLiterals_length], h4, ?_⟩
  rw [decodedBytes, h2]
  exact EmptyLiterals.work n

/-- Seven lines fit into the 40 bytes of the sample. -/
example : 5 * 7 < ServerSample.options.maxCommandSize := by decide

/-- With the default limits, a command of less than 25 MiB + 64 KiB makes the server decode 69 terabytes. -/
theorem C87_default (ho : ServerOptions.default Toy.lib = .ok o) :
    ∃ ops s T, (Server.new g o gr).trace Toy.lib ops = .ok (s, T) ∧ (serverGiven T).length < 26279936 ∧
      69000000000000 < decodedBytes T := by
  have hmax : o.maxCommandSize = 26279936 := by
    cases ho
    rfl
  obtain ⟨s, T, h1, h2, -, h3⟩ := C87_quadratic (g := g) (o := o) (gr := gr) (n := 5255987) (by omega)
  exact ⟨_, s, T, h1, by omega, by omega⟩

example : ∃ o, ServerOptions.default Toy.lib = .ok o := ⟨_, rfl⟩

/-- No factor bounds the work by the length of the input. -/
theorem C87_false (N : Nat) : ∃ o : ServerOptions, ServerOptions.Built Toy.lib o ∧ ∀ g gr, ∃ ops s T,
    (Server.new g o gr).trace Toy.lib ops = .ok (s, T) ∧ N * (serverGiven T).length < decodedBytes T := by
  obtain ⟨o, ho⟩ : ∃ o, ServerOptions.default Toy.lib = .ok o := ⟨_, rfl⟩
  refine ⟨{ o with maxCommandSize := 10 * N + 6 }, .maxCommandSize _ (.default ho), fun g gr => ?_⟩
  obtain ⟨s, T, h1, h2, -, h3⟩ := C87_quadratic (g := g) (gr := gr) (n := 2 * N + 1)
    (o := { o with maxCommandSize := 10 * N + 6 }) (by show _ < 10 * N + 6; omega)
  refine ⟨_, s, T, h1, ?_⟩
  rw [h2]
  have e1 : 5 * (2 * N + 1) * (2 * N + 1 + 1) = 2 * (N * (5 * (2 * N + 1))) + 2 * (5 * (2 * N + 1)) := by grind
  omega

/-- The decoder is called at most once per line end received, with at most one command of the allowed size, and
beyond the bytes received only the announcements of literals cost anything.  Missing: a bound that does not multiply
the number of literals with the size of a command, see `C87_quadratic`. -/
theorem C87_partial (h : (Server.new g o gr).trace L ops = .ok (s, T)) :
    (attempts T).length ≤ (serverGiven T).count LF ∧ (∀ w ∈ attempts T, w.length ≤ o.maxCommandSize) ∧
      decodedBytes T ≤ (serverGiven T).length + literalCount T * o.maxCommandSize ∧
      decodedBytes T ≤ (serverGiven T).count LF * o.maxCommandSize := by
  have h1 := Server.attempts_lines h
  have h2 := fun w (hw : w ∈ attempts T) => Server.attempts_size h hw
  refine ⟨h1, h2, ?_, ?_⟩
  · have h3 := decodedBytes_le h2
    have h4 := congrArg List.length (Server.given_eq (Server.trace_inv h))
    rw [List.length_append] at h4
    omega
  · have h3 : decodedBytes T ≤ ((attempts T).map List.length).length * o.maxCommandSize := by
      refine sum_le_mul fun x hx => ?_
      obtain ⟨w, hw, rfl⟩ := List.mem_map.mp hx
      exact h2 w hw
    rw [List.length_map] at h3
    exact Nat.le_trans h3 (Nat.mul_le_mul_right _ h1)

/-- Without literals, no byte is given to the decoder twice. -/
theorem C87_lines (h : (Server.new g o gr).trace L ops = .ok (s, T)) (hl : literalCount T = 0) :
    decodedBytes T ≤ (serverGiven T).length := by
  have := (C87_partial h).2.2.1
  rw [hl] at this
  omega

/-- Each of the three literals costs one more attempt. -/
example : ∃ s, (Server.new ClientSample.g ServerSample.options ServerSample.greeting).trace Toy.lib
    ServerSample.commandOps = .ok (s, ServerSample.commandTrace) ∧
    (attempts ServerSample.commandTrace).map List.length = [6, 13, 16, 7, 11, 3, 9, 8, 17] ∧
    literalCount ServerSample.commandTrace = 3 := by
  obtain ⟨s, h⟩ := ServerSample.command_run
  exact ⟨s, h, by decide +kernel, by decide +kernel⟩

/-- AUTHENTICATE and IDLE: every byte once. -/
example : ∃ s, (Server.new ClientSample.g ServerSample.options ServerSample.greeting).trace Toy.lib
    ServerSample.authIdleOps = .ok (s, ServerSample.authIdleTrace) ∧ literalCount ServerSample.authIdleTrace = 0 ∧
    0 < decodedBytes ServerSample.authIdleTrace := by
  obtain ⟨s, h⟩ := ServerSample.authIdle_run
  exact ⟨s, h, by decide +kernel, by decide +kernel⟩

/-- The client has the same weakness and no limit for it: whatever its options, `n` lines of 5 bytes from the server cost
5 · n · (n + 1) / 2 bytes to decode, all in a single call of `next`. -/
theorem C87_client_quadratic (g : HandleGenerator) (o : ClientOptions) (n : Nat) :
    ∃ c T, (Client.new g o).trace Toy.lib [.enqueueInput hiGreeting, .next, .enqueueInput (emptyLiterals n), .next] = .ok (c, T) ∧
      (clientGiven T).length = 5 + 5 * n ∧ clientTaken T = hiGreeting ∧
      2 * (Client.new g o).decodedCalls Toy.lib [.enqueueInput hiGreeting, .next, .enqueueInput (emptyLiterals n), .next] =
        10 + 5 * n * (n + 1) := by
  obtain ⟨c, T, h1, h2, h3, h4⟩ := EmptyLiterals.client_trace g o n
  exact ⟨c, T, h1, by rw [h2, List.length_append, emptyLiterals_length]; rfl, h3, h4⟩

/-- No factor bounds the work of a client by the length of its input. -/
theorem C87_client_false (g : HandleGenerator) (o : ClientOptions) (N : Nat) : ∃ ops c T,
    (Client.new g o).trace Toy.lib ops = .ok (c, T) ∧
      N * (clientGiven T).length < (Client.new g o).decodedCalls Toy.lib ops := by
  obtain ⟨c, T, h1, h2, -, h4⟩ := C87_client_quadratic g o (2 * N + 1)
  refine ⟨_, c, T, h1, ?_⟩
  rw [h2]
  have e1 : 5 * (2 * N + 1) * (2 * N + 1 + 1) = 2 * (N * (5 + 5 * (2 * N + 1))) + 2 * (5 * N) + 10 := by grind
  omega

/-- A client decodes at most all bytes received once per line end received.  Missing: a bound that does not multiply them,
see `C87_client_quadratic`. -/
theorem C87_client_partial {g : HandleGenerator} {o : ClientOptions} {ops : List ClientOp} {c : Client} {T : List CItem}
    (h : (Client.new g o).trace L ops = .ok (c, T)) :
    (Client.new g o).decodedCalls L ops ≤ (clientGiven T).count LF * (clientGiven T).length :=
  Client.decoded_le h

/-- A greeting and some responses: the work is not zero. -/
example : ∃ c, (Client.new ClientSample.g .default).trace Toy.lib ClientSample.literalOps = .ok (c, ClientSample.literalTrace) ∧
    0 < (Client.new ClientSample.g .default).decodedCalls Toy.lib ClientSample.literalOps := by
  obtain ⟨c, h⟩ := ClientSample.literal_run
  exact ⟨c, h, by decide +kernel⟩

/-- In the proxy: what a client sends is decoded at most once per line end, with at most 25 MiB + 64 KiB each.  `W` is the
record of the calls of the proxy's server. -/
theorem C87_proxy_partial {K : Type} {tc ts : Option (Tls K)} {gc gs : HandleGenerator} {as : List ProxyAct} {T : List ProxyItem}
    {p : Proxy K} (hL : L.Lawful) (hP : L.Proxyable) (h : (Proxy.start tc ts gc).run L gs as = some (p, T))
    (ho : proxyServerOptions L = .ok o) (hg : (streamEvents (serverSide T)).head? = some (.greetingReceived gr)) :
    ∃ s W, (Server.new gs o gr.restrict).trace L (serverOps (clientSide T)) = .ok (s, W) ∧
      (attempts W).length ≤ (streamDelivered (clientSide T)).count LF ∧
      (∀ w ∈ attempts W, w.length ≤ 25 * 1024 * 1024 + 64 * 1024) ∧
      decodedBytes W ≤ (streamDelivered (clientSide T)).length + literalCount W * (25 * 1024 * 1024 + 64 * 1024) := by
  obtain ⟨s, W, h2, h3⟩ := Proxy.run_client_ops hL hP h ho hg
  obtain ⟨k1, k2, k3, -⟩ := C87_partial h2
  rw [h3, proxyServerOptions_size ho] at *
  exact ⟨s, W, h2, k1, k2, k3⟩

/-- A conversation that meets the hypotheses. -/
example : ∃ p T o gr, ProxySample.run ProxySample.talk = some (p, T) ∧ proxyServerOptions Toy.lib = .ok o ∧
    (streamEvents (serverSide T)).head? = some (.greetingReceived gr) ∧ (streamDelivered (clientSide T)).count LF = 8 := by
  have h : (ProxySample.run ProxySample.talk).map (fun x => ((streamDelivered (clientSide x.2)).count LF,
        match proxyServerOptions Toy.lib, (streamEvents (serverSide x.2)).head? with
        | .ok _, some (.greetingReceived _) => true
        | _, _ => false)) = some (8, true) := by decide +kernel
  obtain ⟨⟨p, T⟩, h1, h2⟩ := ProxySample.of_map h
  simp only [Prod.mk.injEq] at h2
  obtain ⟨h2, h3⟩ := h2
  split at h3
  · next o gr e1 e2 => exact ⟨p, T, o, gr, h1, e1, e2, h2⟩
  · cases h3

end ImapFlow

import Verif.Proofs.ServerReads
import Verif.Spec.ServerSamples

/-!
# C08: the server never panics
-/

namespace ImapFlow

/-- Every list of API calls on a new server whose options were built with the public API, with any
client bytes, runs to its end. -/
theorem C08_server_no_panic {L : Lib} (hL : L.Lawful) {o : ServerOptions} (hO : ServerOptions.Built L o)
    (g : HandleGenerator) (gr : Greeting) (ops : List ServerOp) :
    ∃ s hist, (Server.new g o gr).run L ops = .ok (s, hist) := by
  obtain ⟨⟨s, T⟩, h⟩ := Server.trace_safe hL hO.usable (Server.new_inv L g o gr) ops
  rw [← Server.trace_erase, h]
  exact ⟨s, _, rfl⟩

/-- The default options can be built. -/
theorem C08_default_options {L : Lib} (hL : L.Lawful) : ∃ o, ServerOptions.default L = .ok o := by
  have : L.ccrBasicFromText none ServerOptions.defaultText = some (.basic none ServerOptions.defaultText) := by
    have := hL.defaultText
    simp [Lib.ccrBasicFromText, ServerOptions.defaultText, this]
  simp [ServerOptions.default, this]

/-- The options of the samples can be built, and the statement covers hostile input. -/
example : ∃ s hist, (Server.new ClientSample.g ServerSample.options ServerSample.greeting).run Toy.lib
    ServerSample.commandOps = .ok (s, hist) :=
  C08_server_no_panic Toy.lawful (.accept (text := ClientSample.str "ok") (r := .ok ())
    (.reject (text := ClientSample.str "no") (r := .ok ())
      (.maxCommandSize 40 (.maxLiteralSize 4 (.default rfl))) rfl) rfl) _ _ _

/-- Options with a different kind of continuation request, which the public API cannot produce, make
the server panic. -/
example :
    let o := { ServerSample.options with literalAcceptCcr := .base64 [] }
    (Server.new ClientSample.g o ServerSample.greeting).run Toy.lib
      [.next, .next, .enqueueInput (ClientSample.ln "A{xx"), .next] = .error .unreachableCode := by
  decide +kernel

end ImapFlow

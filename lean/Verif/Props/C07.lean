import Verif.Proofs.ClientReads
import Verif.Spec.ClientSamples

/-!
# C07: the client never panics
-/

namespace ImapFlow

/-- Every list of API calls on a new client, with any server bytes, runs to its end. -/
theorem C07_client_no_panic {L : Lib} (hL : L.Lawful) (g : HandleGenerator) (o : ClientOptions)
    (ops : List ClientOp) : ∃ c hist, (Client.new g o).run L ops = .ok (c, hist) := by
  obtain ⟨⟨c, T⟩, h⟩ := Client.trace_safe hL (Client.new_inv L g o) ops
  rw [← Client.trace_erase, h]
  exact ⟨c, _, rfl⟩

/-- The contract is satisfiable, and the statement covers hostile input. -/
example : ∃ c hist, (Client.new ClientSample.g .default).run Toy.lib ClientSample.badOps = .ok (c, hist) :=
  C07_client_no_panic Toy.lawful _ _ _

/-- The contract is needed: with a decoder that decodes a message but leaves some of the line over,
the assertion in the receiver fails. -/
example :
    let L := { Toy.lib with decodeGreeting := fun i => .ok (i.drop 1, ⟨.ok, none, []⟩) }
    (Client.new ClientSample.g .default).run L [.enqueueInput (ClientSample.ln "Ghi"), .next] =
      .error .assertFailed := by
  decide +kernel

end ImapFlow

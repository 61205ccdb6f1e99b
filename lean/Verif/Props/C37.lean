import Verif.Proofs.NetDone
import Verif.Spec.NetSamples

/-!
# C37: end to end, the negotiation of literals cannot deadlock

If the system of `Spec/Net.lean` cannot make a step without its users, every enqueued command was
delivered to the user of the server and reported as sent to the user of the client.  The hypotheses are
those of C35 and C36; `ServerOptions.Built` says that the options were built with the setters.
-/

namespace ImapFlow

variable {L : Lib} {gc gs : HandleGenerator} {oc : ClientOptions} {os : ServerOptions} {gr : Greeting}
  {ops : List NetOp} {n : Net} {T : List NItem}

theorem C37_no_deadlock (hL : L.Lawful) (h : (Net.new gc oc gs os gr).run L ops = .ok (n, T))
    (hO : ServerOptions.Built L os) (hmax : 0 < os.maxCommandSize)
    (hrt : ∀ m ∈ serverMessages gr (serverItems T), m.RoundTrip L oc)
    (hc : GoodCommands L os (clientItems T)) (hs : n.Stuck L) :
    serverCommands (serverItems T) = (clientEnqueued (clientItems T)).map (·.2) ∧
    clientTerminals (clientItems T) = (clientEnqueued (clientItems T)).map fun x => .commandSent x.1 x.2 := by
  have hl := Net.run_linked h
  obtain ⟨n', T', A, B, hl', hA, hB, h1, h2, e1, e2, e3, e4, -⟩ := hl.settle hO hs
  have hd := hl'.done hL hO (by rw [e3]; exact hrt) hA hB h1 h2 hmax
    ⟨by rw [e1]; exact hc.regular, by rw [e1]; exact hc.roundTrip, by rw [e1]; exact hc.fits, by rw [e2]; exact hc.accepted⟩
  rw [serverCommands_filter, e1, e2, e4, ← serverCommands_filter] at hd
  exact hd

/-- A stuck system after three commands with literals of both kinds. -/
example : ∃ n T, NetSample.start.run Toy.lib NetSample.ops = .ok (n, T) ∧
    (∀ m ∈ serverMessages ServerSample.greeting (serverItems T), m.RoundTrip Toy.lib .default) ∧
    GoodCommands Toy.lib ServerSample.options (clientItems T) ∧ n.Stuck Toy.lib ∧
    (clientEnqueued (clientItems T)).length = 3 := by
  obtain ⟨n, T, h, hf, hs⟩ := NetSample.run_stuck
  refine ⟨n, T, h, NetSample.messages_roundTrip hf, NetSample.goodCommands hf, hs, ?_⟩
  have := congrArg List.length hf.1
  simpa using this

end ImapFlow

import Verif.Proofs.DialogueStuck
import Verif.Spec.DialogueSamples

/-!
# C53: end to end, dialogues never hang

When a system as in C52 makes no step by itself, one of the two users is to act, and both sides agree whose
turn it is.
-/

namespace ImapFlow

variable {L : Lib} {gc gs : HandleGenerator} {oc : ClientOptions} {os : ServerOptions} {gr : Greeting}
  {ops : List NetOp} {n : Net} {T : List NItem}

/-- If nothing moves, the server has heard everything the client has said, and the client has understood
all answers. -/
theorem C53_everything_said (hL : L.Lawful) (h : (Net.new gc oc gs os gr).run L ops = .ok (n, T))
    (hO : ServerOptions.Built L os) (hmax : 0 < os.maxCommandSize)
    (hrt : ∀ m ∈ serverMessages gr (serverItems T), m.RoundTrip L oc)
    (hF : FairClient L os (clientItems T)) (hP : OrderlyServer (serverItems T)) (hs : n.Stuck L) :
    serverHeard (serverItems T) = (ClientView.of (clientItems T)).said ∧
    clientAnswers (clientItems T) = serverAnswers (serverItems T) := by
  obtain ⟨h1, h2, -⟩ := (Net.run_linked h).turn hL hO hrt hmax hF hP hs
  exact ⟨h1, h2⟩

/-- If nothing moves, either all commands were delivered, or an AUTHENTICATE or IDLE is in progress and both
sides agree which of the users is awaited. -/
theorem C53_turn (hL : L.Lawful) (h : (Net.new gc oc gs os gr).run L ops = .ok (n, T))
    (hO : ServerOptions.Built L os) (hmax : 0 < os.maxCommandSize)
    (hrt : ∀ m ∈ serverMessages gr (serverItems T), m.RoundTrip L oc)
    (hF : FairClient L os (clientItems T)) (hP : OrderlyServer (serverItems T)) (hs : n.Stuck L) :
    Turn (ClientView.of (clientItems T)) (serverPhase (serverItems T)) (serverDialogue (serverItems T)) :=
  ((Net.run_linked h).turn hL hO hrt hmax hF hP hs).2.2

/-- Stuck systems in all phases of the server: the user of the server has to answer AUTHENTICATE; the user of
the client has to send data; the user of the server has to answer the data, then IDLE; the user of the client
may end IDLE; the user of the server has to answer another IDLE; everything is done. -/
example : ∀ x ∈ [(DialogueSample.ops1, ServerPhase.authenticate, 2, 0), (DialogueSample.ops2, .authenticate, 2, 1),
    (DialogueSample.ops3, .authenticate, 3, 1), (DialogueSample.ops4, .idlePending, 4, 2), (DialogueSample.ops5, .idle, 4, 3),
    (DialogueSample.ops6, .idlePending, 6, 3), (DialogueSample.ops7, .command, 7, 4)],
    ∃ n T, NetSample.start.run Toy.lib x.1 = .ok (n, T) ∧
      (∀ m ∈ serverMessages ServerSample.greeting (serverItems T), m.RoundTrip Toy.lib .default) ∧
      FairClient Toy.lib ServerSample.options (clientItems T) ∧ OrderlyServer (serverItems T) ∧ n.Stuck Toy.lib ∧
      serverPhase (serverItems T) = x.2.1 ∧ (serverHeard (serverItems T)).length = x.2.2.1 ∧
      (clientAnswers (clientItems T)).length = x.2.2.2 := by
  intro x hx
  obtain ⟨n, T, h, hs, hst⟩ := DialogueSample.stages x hx
  obtain ⟨h1, h2, h3, h4⟩ := hs.hypotheses
  exact ⟨n, T, h, h1, h2, h3, h4, hst⟩

end ImapFlow

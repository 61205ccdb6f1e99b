import Verif.Proofs.DialogueRun
import Verif.Spec.DialogueSamples

/-!
# C52: end to end, dialogues stay in step

The system of `Spec/Net.lean` with regular commands, AUTHENTICATE and IDLE in any order.  The messages of
both sides are decoded to themselves and respect the limits (`FairClient`), and the user of the server
follows the protocol (`OrderlyServer`): continuation requests only as answers to AUTHENTICATE and IDLE, at
most one request for data at a time, no end of AUTHENTICATE while data is outstanding, and the tags fit.
-/

namespace ImapFlow

variable {L : Lib} {gc gs : HandleGenerator} {oc : ClientOptions} {os : ServerOptions} {gr : Greeting}
  {ops : List NetOp} {n : Net} {T : List NItem}

/-- The server hears what the client says, in order: commands, authenticate data and DONE, each as what it
is; and it never discards anything. -/
theorem C52_heard (hL : L.Lawful) (h : (Net.new gc oc gs os gr).run L ops = .ok (n, T))
    (hO : ServerOptions.Built L os) (hmax : 0 < os.maxCommandSize)
    (hrt : ∀ m ∈ serverMessages gr (serverItems T), m.RoundTrip L oc)
    (hF : FairClient L os (clientItems T)) (hP : OrderlyServer (serverItems T)) :
    serverHeard (serverItems T) <+: (ClientView.of (clientItems T)).said ∧
    ∀ e rs, .failed e rs ∉ serverItems T := by
  obtain ⟨D, fl, ht⟩ := (Net.run_linked h).together hL hO hrt hmax hF hP (P := T) (Q := []) (by simp)
  exact ⟨⟨D, ht.core.said.symm⟩, ht.accepted⟩

/-- The client understands the answers of the user of the server, in order and each as what it is, and the
user of the server is never more than one answer ahead. -/
theorem C52_answers (hL : L.Lawful) (h : (Net.new gc oc gs os gr).run L ops = .ok (n, T))
    (hO : ServerOptions.Built L os) (hmax : 0 < os.maxCommandSize)
    (hrt : ∀ m ∈ serverMessages gr (serverItems T), m.RoundTrip L oc)
    (hF : FairClient L os (clientItems T)) (hP : OrderlyServer (serverItems T)) :
    clientAnswers (clientItems T) <+: serverAnswers (serverItems T) ∧
    (serverAnswers (serverItems T)).length ≤ (clientAnswers (clientItems T)).length + 1 := by
  obtain ⟨D, fl, ht⟩ := (Net.run_linked h).together hL hO hrt hmax hF hP (P := T) (Q := []) (by simp)
  refine ⟨⟨_, ht.answers.symm⟩, ?_⟩
  rw [ht.answers, List.length_append]
  have : (flightAnswers fl).length ≤ 1 := by
    unfold flightAnswers
    split <;> simp
  omega

/-- The client never reports a rejected command, a continuation request it did not wait for, or an error. -/
theorem C52_expected (hL : L.Lawful) (h : (Net.new gc oc gs os gr).run L ops = .ok (n, T))
    (hO : ServerOptions.Built L os) (hmax : 0 < os.maxCommandSize)
    (hrt : ∀ m ∈ serverMessages gr (serverItems T), m.RoundTrip L oc)
    (hF : FairClient L os (clientItems T)) (hP : OrderlyServer (serverItems T)) :
    (∀ w hd cmd st, .received w (.commandRejected hd cmd st) ∉ clientItems T) ∧
    (∀ w q, .received w (.continuationRequestReceived q) ∉ clientItems T) ∧
    ∀ e, .failed e ∉ clientItems T := by
  obtain ⟨D, fl, ht⟩ := (Net.run_linked h).together hL hO hrt hmax hF hP (P := T) (Q := []) (by simp)
  exact ⟨fun w hd cmd st hm => ht.expected _ hm, fun w q hm => ht.expected _ hm, fun e hm => ht.expected _ hm⟩

/-- A run with literals, AUTHENTICATE, an accepted and a rejected IDLE; the user of the server sends a tagged
BAD for a completed command while AUTHENTICATE is in progress. -/
example : ∃ n T, NetSample.start.run Toy.lib DialogueSample.ops7 = .ok (n, T) ∧
    (∀ m ∈ serverMessages ServerSample.greeting (serverItems T), m.RoundTrip Toy.lib .default) ∧
    FairClient Toy.lib ServerSample.options (clientItems T) ∧ OrderlyServer (serverItems T) ∧
    DialogueSample.Whole (n, T) := by
  obtain ⟨n, T, h, hs, hw⟩ := DialogueSample.whole_run
  obtain ⟨h1, h2, h3, -⟩ := hs.hypotheses
  exact ⟨n, T, h, h1, h2, h3, hw⟩

/-- Without an orderly server the claim is false: the user of the server asks for data and finishes
AUTHENTICATE without waiting for it; the data, which is on the way, is then executed as a command. -/
theorem C52_early_finish : ∃ (L : Lib) (gc gs : HandleGenerator) (oc : ClientOptions) (os : ServerOptions)
    (gr : Greeting) (ops : List NetOp) (n : Net) (T : List NItem),
    L.Lawful ∧ (Net.new gc oc gs os gr).run L ops = .ok (n, T) ∧ ServerOptions.Built L os ∧ 0 < os.maxCommandSize ∧
    (∀ m ∈ serverMessages gr (serverItems T), m.RoundTrip L oc) ∧ FairClient L os (clientItems T) ∧
    ∃ (d : Bytes) (ca : CommandAuthenticate) (c : Command),
      (ClientView.of (clientItems T)).said = [.commandAuthenticateReceived ca, .authenticateDataReceived (.continue d)] ∧
      serverHeard (serverItems T) = [.commandAuthenticateReceived ca, .commandReceived c] := by
  obtain ⟨n, T, h, hf, h1, h2, -⟩ := DialogueSample.early_run
  exact ⟨_, _, _, _, _, _, _, n, T, Toy.lawful, h, StreamNetSample.built, by decide, DialogueSample.messages_fair hf,
    DialogueSample.client_fair hf, _, _, _, h2, h1⟩

end ImapFlow

import Verif.Proofs.ClientChunk
import Verif.Spec.Toy

/-!
# C01: client behaviour does not depend on how the network splits the input
-/

namespace ImapFlow

/-- Two users of identical clients that only feed input and call `next`, in any interleaving.  If the
bytes fed by the first are a prefix of the bytes fed by the second (in particular if they are the
same bytes, chunked differently), one list of reports (outputs, events, errors) is a prefix of the
other one. -/
theorem C01_client_chunking {L : Lib} {c c1 c2 : Client} {ops1 ops2 : List ClientOp}
    {h1 h2 : List ClientObs} (hc : c.Reachable L) (hf1 : FeedOnly ops1) (hf2 : FeedOnly ops2)
    (hr1 : c.run L ops1 = .ok (c1, h1)) (hr2 : c.run L ops2 = .ok (c2, h2))
    (hi : clientInput h1 <+: clientInput h2) :
    clientReports h1 <+: clientReports h2 ∨ clientReports h2 <+: clientReports h1 :=
  (Client.feeder_chunkable L).runs_agree hc.sound (Client.run_feeder hc.sound hf1 hr1)
    (Client.run_feeder hc.sound hf2 hr2) hi

/-- If moreover the second user has called `next` until it asked for more input, then nothing the
first user has seen is missing.  With equal inputs and both drained, the reports are equal. -/
theorem C01_client_chunking_drained {L : Lib} {c c1 c2 c2' : Client} {ops1 ops2 : List ClientOp}
    {h1 h2 : List ClientObs} (hc : c.Reachable L) (hf1 : FeedOnly ops1) (hf2 : FeedOnly ops2)
    (hr1 : c.run L ops1 = .ok (c1, h1)) (hr2 : c.run L ops2 = .ok (c2, h2))
    (hi : clientInput h1 <+: clientInput h2)
    (hd : c2.next L = .ok (c2', .error (.io .needMoreInput))) :
    clientReports h1 <+: clientReports h2 :=
  (Client.feeder_chunkable L).runs_drained hc.sound (Client.run_feeder hc.sound hf1 hr1)
    (Client.run_feeder hc.sound hf2 hr2) hi hd (by simp [Client.feeder])

namespace C01Example

/-- A client that has received its greeting and has a command with a literal queued. -/
def start : List ClientOp :=
  [.enqueueInput [71, 104, 105, 13, 10], .next, .enqueueCommand ⟨[65], .other [120, 10, 121]⟩]

/-- `+ok`, `*{xx`, `\r\n`, CRLF, `*d`. -/
def wire : Bytes := [43, 111, 107, 13, 10, 42, 123, 120, 120, 13, 10, 13, 10, 13, 10, 42, 100, 13, 10]

def g : HandleGenerator := { generatorId := 0, nextHandleId := 0 }

/-- One user feeds everything at once, the other one byte by byte; both see the first output, the
literal released by the continuation request, the sent event, and two data responses (the first one
carrying a literal CRLF).  So the hypotheses of the theorems above hold for them. -/
example :
    let c := (Client.run Toy.lib (Client.new g .default) start).toOption.map (·.1)
    let ops1 := .enqueueInput wire :: List.replicate 6 .next
    let ops2 := List.replicate 6 ClientOp.next ++ wire.flatMap (fun b => [.enqueueInput [b], .next, .next, .next])
    let r1 := c.bind fun c => (c.run Toy.lib ops1).toOption.map fun r => clientReports r.2
    let r2 := c.bind fun c => (c.run Toy.lib ops2).toOption.map fun r => clientReports r.2
    r1 = r2 ∧ r1 = some [
      .error (.io (.output [65, 123, 120, 120, 120, 13, 10])),
      .error (.io (.output [120, 10, 121, 13, 10])),
      .ok (.commandSent ⟨0, 0⟩ ⟨[65], .other [120, 10, 121]⟩),
      .ok (.dataReceived (.other [13, 10])),
      .ok (.dataReceived (.other [100]))] := by
  decide +kernel

end C01Example

end ImapFlow

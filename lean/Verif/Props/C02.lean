import Verif.Proofs.ServerChunk
import Verif.Spec.Toy

/-!
# C02: server reception does not depend on how the network splits the input
-/

namespace ImapFlow

/-- Two users of identical servers that feed input, call `next` and enqueue responses in any
interleaving.  If the bytes fed by the first are a prefix of the bytes fed by the second (in
particular the same bytes, chunked differently), one list of received messages and reception errors
is a prefix of the other one. -/
theorem C02_server_chunking {L : Lib} {s s1 s2 : Server} {ops1 ops2 : List ServerOp}
    {h1 h2 : List ServerObs} (hs : s.Reachable L) (hf1 : ReceptionOnly ops1) (hf2 : ReceptionOnly ops2)
    (hr1 : s.run L ops1 = .ok (s1, h1)) (hr2 : s.run L ops2 = .ok (s2, h2))
    (hi : serverInput h1 <+: serverInput h2) :
    serverReceived h1 <+: serverReceived h2 ∨ serverReceived h2 <+: serverReceived h1 := by
  obtain ⟨r1, hr1', e1⟩ := Server.run_feeder hs.sound hf1 hr1
  obtain ⟨r2, hr2', e2⟩ := Server.run_feeder hs.sound hf2 hr2
  rw [← e1, ← e2]
  have hsw : s.wipe.Sound := hs.sound
  rcases (Server.feeder_chunkable L).runs_agree hsw hr1' hr2' hi with h | h
  · exact .inl (h.filterMap _)
  · exact .inr (h.filterMap _)

/-- If moreover the next call of the second user asks for more input, then nothing the first user has
received is missing.  With equal inputs and both drained, the lists are equal. -/
theorem C02_server_chunking_drained {L : Lib} {s s1 s2 s2' : Server} {ops1 ops2 : List ServerOp}
    {h1 h2 : List ServerObs} (hs : s.Reachable L) (hf1 : ReceptionOnly ops1) (hf2 : ReceptionOnly ops2)
    (hr1 : s.run L ops1 = .ok (s1, h1)) (hr2 : s.run L ops2 = .ok (s2, h2))
    (hi : serverInput h1 <+: serverInput h2)
    (hd : s2.next L = .ok (s2', .error (.io .needMoreInput))) :
    serverReceived h1 <+: serverReceived h2 := by
  have hext : s.run L (ops2 ++ [.next]) =
      .ok (s2', h2 ++ [.next (.error (.io .needMoreInput))]) := Server.run_append hr2 (by
    simp only [Server.run, Server.call, hd, Except.map])
  have hf2' : ReceptionOnly (ops2 ++ [.next]) := by
    intro op ho
    rcases List.mem_append.mp ho with h | h
    · exact hf2 op h
    · exact .inl (by simpa using h)
  obtain ⟨r1, hr1', e1⟩ := Server.run_feeder hs.sound hf1 hr1
  obtain ⟨r2, hr2', e2⟩ := Server.run_feeder hs.sound hf2' hext
  have hin : serverInput (h2 ++ [.next (.error (.io .needMoreInput))]) = serverInput h2 := by
    rw [serverInput_append]; simp [serverInput]
  have hrec : serverReceived (h2 ++ [.next (.error (.io .needMoreInput))]) = serverReceived h2 := by
    rw [serverReceived_append]; simp [serverReceived]
  rw [hin] at hr2'
  rw [hrec] at e2
  have hsw : s.wipe.Sound := hs.sound
  obtain ⟨s3, h3⟩ := Server.next_drained (Server.run_sound hs.sound hr2) hd
  have := (Server.feeder_chunkable L).runs_drained hsw hr1' hr2' hi h3 (by simp [Server.feeder])
  rw [← e1, ← e2]
  exact this.filterMap _

namespace C02Example

def g : HandleGenerator := { generatorId := 0, nextHandleId := 0 }

def options : ServerOptions :=
  { crlfRelaxed := false, maxLiteralSize := 4, maxCommandSize := 40,
    literalAcceptCcr := .basic none [111, 107], literalRejectCcr := .basic none [110, 111] }

/-- `A Chi`, `B{xx` + CRLF as literal, a line with a bare LF, `C{xxxxx` (too long), `D Cyo`. -/
def wire : Bytes :=
  [65, 32, 67, 104, 105, 13, 10] ++ [66, 123, 120, 120, 13, 10, 13, 10, 13, 10] ++ [63, 10] ++
  [67, 123, 120, 120, 120, 120, 120, 13, 10] ++ [68, 32, 67, 121, 111, 13, 10]

/-- One user feeds everything at once and first reads all, the other one feeds byte by byte and
enqueues responses in between; both receive three commands and two errors. -/
example :
    let s := Server.new g options { kind := .ok, code := none, text := [104] }
    let ops1 := .enqueueInput wire :: List.replicate 10 .next
    let ops2 := wire.flatMap fun b =>
      [ServerOp.enqueueInput [b], .next, .enqueueData (.other [100]), .next, .next, .next]
    let r1 := (s.run Toy.lib ops1).toOption.map fun r => serverReceived r.2
    let r2 := (s.run Toy.lib ops2).toOption.map fun r => serverReceived r.2
    r1 = r2 ∧ r1 = some [
      .ok (.commandReceived ⟨[65], .other [104, 105]⟩),
      .ok (.commandReceived ⟨[66], .other [13, 10]⟩),
      .error (.expectedCrlfGotLf [63, 10]),
      .error (.literalTooLong [67, 123, 120, 120, 120, 120, 120, 13, 10]),
      .ok (.commandReceived ⟨[68], .other [121, 111]⟩)] := by
  decide +kernel

/-- The options can be built with the public API. -/
example : ServerOptions.Built Toy.lib options :=
  .accept (text := [111, 107]) (r := .ok ()) (.reject (text := [110, 111]) (r := .ok ())
    (.maxCommandSize 40 (.maxLiteralSize 4 (.default rfl))) rfl) rfl

end C02Example

end ImapFlow

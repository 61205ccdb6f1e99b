import Verif.Proofs.ServerReads
import Verif.Spec.ServerSamples

/-!
# C26: bytes of an accepted literal never become commands

The claim would be: when the server has accepted a literal of `k` bytes after the command prefix `p`,
the next bytes it takes from its input contain `p` and the whole literal, so no byte of the literal is
the beginning of a new command.

```
theorem C26 {L g o gr ops s T1 T T2 p rs tag k mode i}
    (h : (Server.new g o gr).trace L ops = .ok (s, T1 ++ .literal p rs :: T ++ i :: T2))
    (hk : L.decodeCommand p = .error (.literalFound tag k mode))
    (hn : ∀ j ∈ T, j.reads = false) (hi : i.reads = true) : p.length + k ≤ i.taken.length
```

This is false if the literal does not fit into `max_command_size`
(`/repo/src/server.rs:246-312` compares only the length of the literal with `max_literal_size`;
`/repo/src/receive.rs` then reports `MessageTooLong` in the middle of the literal, and
`discard_message` leaves the rest of the literal in the buffer).
-/

namespace ImapFlow

/-- The claim is false: the server sends a continuation request for a literal, reports `CommandTooLong`
after two of its bytes, and then reports the rest of the literal as a command. -/
theorem C26_false : ∃ (g : HandleGenerator) (o : ServerOptions) (gr : Greeting) (ops : List ServerOp)
    (s : Server) (T1 T2 : List SItem) (p d c : Bytes) (tag : Tag) (rs : List ServerMessage) (command : Command),
    ServerOptions.Built Toy.lib o ∧ (Server.new g o gr).trace Toy.lib ops = .ok (s, T1 ++ T2) ∧
    -- the client sends the announcement of a synchronizing literal and then exactly its bytes `d ++ c`
    serverGiven (T1 ++ T2) = p ++ d ++ c ++ ClientSample.ln "" ∧
    Toy.lib.decodeCommand p = .error (.literalFound tag (d ++ c).length .sync) ∧
    .literal p rs ∈ T1 ∧
    -- bytes of the literal are reported as a command
    .received c (.commandReceived command) ∈ T2 := by
  obtain ⟨s, h⟩ := ServerSample.smuggle_run
  exact ⟨_, _, _, _, s, ServerSample.smuggleTrace.take 8, ServerSample.smuggleTrace.drop 8,
    ClientSample.ln "A{xxxxxxxx", ClientSample.str "??", ClientSample.ln "B Cz", ClientSample.str "A",
    [.response none (.continuationRequest (.basic none (ClientSample.str "ok")))],
    ⟨ClientSample.str "B", .other (ClientSample.str "z")⟩,
    .maxCommandSize 14 (.maxLiteralSize 8 (.accept (text := ClientSample.str "ok") (r := .ok ())
      (.reject (text := ClientSample.str "no") (r := .ok ()) (.default rfl) rfl) rfl)),
    h, by decide +kernel, by decide +kernel, by decide +kernel, by decide +kernel⟩

/-- What does hold: if prefix and literal fit into `max_command_size`, the next bytes taken contain
them. -/
theorem C26_literal_not_command_partial {L : Lib} {g : HandleGenerator} {o : ServerOptions} {gr : Greeting}
    {ops : List ServerOp} {s : Server} {T1 T T2 : List SItem} {p : Bytes} {rs : List ServerMessage}
    {tag : Tag} {k : Nat} {mode : LiteralMode} {i : SItem}
    (h : (Server.new g o gr).trace L ops = .ok (s, T1 ++ .literal p rs :: (T ++ i :: T2)))
    (hk : L.decodeCommand p = .error (.literalFound tag k mode))
    (hn : ∀ j ∈ T, j.reads = false) (hi : i.reads = true) (hm : p.length + k ≤ o.maxCommandSize) :
    p <+: i.taken ∧ p.length + k ≤ i.taken.length := by
  obtain ⟨s1, hinv⟩ := Server.prefix_inv h
  obtain ⟨-, ⟨rest, h1⟩, h2, h3, -, tag', k', mode', h4, h5, -⟩ := Server.trace_guard h
  rw [ServerView.of_phase] at h3
  rw [hk] at h5
  cases h5
  have hp : p <+: serverUnread T1 := ⟨rest, Server.of_given hinv h1⟩
  have h' : (Server.new g o gr).trace L ops = .ok (s, T1 ++ (.literal p rs :: T) ++ i :: T2) := by simpa using h
  have hn' : ∀ j ∈ SItem.literal p rs :: T, j.reads = false := by
    intro j hj
    rcases List.mem_cons.mp hj with rfl | hj
    · rfl
    · exact hn j hj
  have hu := Server.unread_append h' hn'
  have hph := Server.phase_command h' hn' h3
  have hp' : p <+: serverUnread (T1 ++ SItem.literal p rs :: T) := by
    rw [hu]; exact hp.trans (List.prefix_append _ _)
  obtain ⟨s2, hinv2⟩ := Server.prefix_inv h'
  have hg := Server.trace_guard h'
  have ht := Server.taken_prefix hinv2 hg
  have hph' : (ServerView.of gr (T1 ++ SItem.literal p rs :: T)).phase = .command := by rw [ServerView.of_phase, hph]
  -- a complete unit reaches beyond the literal
  have key : Complete (commandFraming L o) i.taken → p <+: i.taken ∧ p.length + k ≤ i.taken.length := by
    intro hc
    obtain ⟨p0, l, e, rfl, ha, hl, hcr, hd, hlit⟩ := h4
    have hlt := hc.beyond_literal ht ha hl hcr hp' hd hlit
    exact ⟨prefix_of_le hp' ht (by omega), by omega⟩
  cases i with
  | received w e =>
    obtain ⟨-, -, -, ht', -⟩ := hg
    rw [hph'] at ht'
    obtain ⟨c, hc, -⟩ := ht'
    exact key hc.complete
  | failed e rs' =>
    obtain ⟨-, -, hd, -⟩ := hg
    rw [hph'] at hd
    by_cases hx : ∃ w', e = .commandTooLong w'
    · obtain ⟨w', rfl⟩ := hx
      obtain ⟨hl, -, -⟩ := hd.tooLong
      have hl' : (SItem.failed (.commandTooLong w') rs').taken.length = o.maxCommandSize := hl
      exact ⟨prefix_of_le hp' ht (by omega), by omega⟩
    · exact key (hd.complete fun w' hw' => hx ⟨w', hw'⟩)
  | _ => cases hi

/-- A literal that fits: the content of the second literal of `A` looks like line breaks, but the next
bytes taken are the whole command. -/
example : ∃ T1 T i T2 p rs, ServerSample.commandTrace = T1 ++ .literal p rs :: (T ++ i :: T2) ∧
    (∀ j ∈ T, j.reads = false) ∧ i.reads = true ∧ p.length = 6 ∧ i.taken.length = 16 :=
  ⟨ServerSample.commandTrace.take 3, (ServerSample.commandTrace.drop 4).take 13, _,
    ServerSample.commandTrace.drop 18, ClientSample.ln "A{xx",
    [.response none (.continuationRequest (.basic none (ClientSample.str "ok")))], rfl, by decide +kernel, rfl,
    by decide +kernel, by decide +kernel⟩

end ImapFlow

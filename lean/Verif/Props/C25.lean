import Verif.Proofs.ClientLiteral
import Verif.Proofs.ClientAgain
import Verif.Spec.ClientSamples
import Verif.Proofs.ServerReplies
import Verif.Spec.ServerSamples

/-!
# C25: NeedMoreInput means nothing is left to send
-/

namespace ImapFlow

/-- After the greeting the client asks for more input only if nothing is queued, or the current command
waits for the server (literal, AUTHENTICATE, IDLE) or the user (AUTHENTICATE data, DONE). -/
theorem C25_client_nothing_to_send {L : Lib} (hL : L.Lawful) {g : HandleGenerator} {o : ClientOptions}
    {ops : List ClientOp} {c : Client} {T1 T2 : List CItem}
    (ht : (Client.new g o).trace L ops = .ok (c, T1 ++ .starved :: T2)) (hg : clientGreeted T1) :
    Waiting L (ClientView.of T1) :=
  (Client.trace_guard hL ht).1 ((ClientView.of_greeted T1).mpr hg)

/-- `NeedMoreInput` means what it says: another call of `next` returns it again and changes nothing. -/
theorem C25_client_stable {L : Lib} {c c' : Client} (h : c.next L = .ok (c', .error (.io .needMoreInput))) :
    c'.next L = .ok (c', .error (.io .needMoreInput)) :=
  Client.next_again h

/-- The client asks for more input while `B` waits for its literal and `C` is queued. -/
example : ∃ c, (Client.new ClientSample.g .default).trace Toy.lib ClientSample.literalOps =
      .ok (c, ClientSample.literalTrace.take 13 ++ .starved :: ClientSample.literalTrace.drop 14) ∧
    (ClientView.of (ClientSample.literalTrace.take 13)).remaining =
      [(ClientSample.hB, ClientSample.cmdB), (ClientSample.hC, ClientSample.cmdC)] := by
  obtain ⟨c, h⟩ := ClientSample.literal_run
  exact ⟨c, h, by decide +kernel⟩

/-! ## Server

The claim for the server would be: whenever `next` returns `NeedMoreInput`, every enqueued response has
been handed out.

```
theorem C25_server {L g o gr ops s T1 T2} (h : (Server.new g o gr).trace L ops = .ok (s, T1 ++ .starved :: T2)) :
    (serverOutputs T1).length = (serverMessages gr T1).length
```

This is false: `Server::progress_send` (`/repo/src/server.rs:182-206`) returns `Ok(None)` when the sending
of a response generated by the server itself ends, so `Server::next` goes on to receive although there
may be responses in the queue. -/

/-- The claim is false: the server asks for more input although a response of the user is queued. -/
theorem C25_server_false : ∃ (g : HandleGenerator) (o : ServerOptions) (gr : Greeting) (ops : List ServerOp)
    (s : Server) (T1 T2 : List SItem),
    ServerOptions.Built Toy.lib o ∧ (Server.new g o gr).trace Toy.lib ops = .ok (s, T1 ++ .starved :: T2) ∧
    (serverOutputs T1).length < (serverMessages gr T1).length := by
  obtain ⟨s, h⟩ := ServerSample.queued_run
  exact ⟨_, _, _, _, s, ServerSample.queuedTrace.take 7, ServerSample.queuedTrace.drop 8,
    .accept (text := ClientSample.str "ok") (r := .ok ()) (.reject (text := ClientSample.str "no") (r := .ok ())
      (.maxCommandSize 40 (.maxLiteralSize 4 (.default rfl))) rfl) rfl, h, by decide +kernel⟩

/-- What does hold: every response generated by the server itself has been handed out, and unless the
sending of such a response ended in the same call of `next`, so has every response of the user. -/
theorem C25_server_partial {L : Lib} {g : HandleGenerator} {o : ServerOptions} {gr : Greeting}
    {ops : List ServerOp} {s : Server} {T1 T2 : List SItem}
    (h : (Server.new g o gr).trace L ops = .ok (s, T1 ++ .starved :: T2)) :
    (∀ m ∈ (serverMessages gr T1).drop (serverOutputs T1).length, ∃ hd r, m = .response (some hd) r) ∧
    ((∀ T, T1 ≠ T ++ [.quiet]) → (serverOutputs T1).length = (serverMessages gr T1).length) := by
  obtain ⟨⟨h1, h2⟩, -⟩ := Server.trace_guard h
  obtain ⟨-, h3⟩ := Server.ownPending_le h
  have hgreet : 0 < (serverOutputs T1).length ∨ (serverOutputs T1).length = (serverMessages gr T1).length := by
    rw [ServerView.of_outputs, ServerView.of_messages] at h2
    rcases h2 with h2 | h2
    · left
      rcases List.eq_nil_or_concat T1 with rfl | ⟨T, i, hT⟩
      · cases h2
      · rw [List.concat_eq_append] at hT
        subst hT
        have hi := Server.quiet_snoc T i h2
        subst hi
        have h' : (Server.new g o gr).trace L ops = .ok (s, T ++ (.quiet :: .starved :: T2)) := by simpa using h
        obtain ⟨h4, -⟩ := Server.trace_guard h'
        rw [ServerView.of_outputs] at h4
        rw [serverOutputs_append, List.length_append]
        omega
    · exact .inr h2
  have h0 : Server.ownPending (.of gr T1) = 0 := by
    rcases h2 with h2 | h2
    · exact h3 h2
    · unfold Server.ownPending
      rw [h1, h2]; simp
  unfold Server.ownPending at h0
  rw [h1, ServerView.of_outputs, ServerView.of_messages, List.countP_eq_zero] at h0
  rw [ServerView.of_outputs, ServerView.of_messages] at h2
  refine ⟨?_, ?_⟩
  · intro m hm
    have hn := h0 m hm
    rcases m with gr' | ⟨_ | hd, r⟩
    · exfalso
      rcases hgreet with hlt | he
      · -- the greeting is the first message only
        obtain ⟨n, hn⟩ := Nat.exists_eq_add_of_lt hlt
        rw [hn, show 0 + n + 1 = n + 1 by omega] at hm
        have hm' : ServerMessage.greeting gr' ∈ T1.flatMap SItem.enqueues := by
          unfold serverMessages at hm
          rw [List.drop_succ_cons] at hm
          exact List.mem_of_mem_drop hm
        obtain ⟨i, hi, hmi⟩ := List.mem_flatMap.mp hm'
        obtain ⟨A, B, rfl⟩ := List.append_of_mem hi
        have h' : (Server.new g o gr).trace L ops = .ok (s, A ++ i :: (B ++ .starved :: T2)) := by simpa using h
        have hg := Server.trace_guard h'
        exact Server.enqueues_not_greeting hg hmi
      · rw [he, List.drop_length] at hm
        cases hm
    · exact (hn rfl).elim
    · exact ⟨hd, r, rfl⟩
  · intro hq
    rcases h2 with h2 | h2
    · exfalso
      rcases List.eq_nil_or_concat T1 with rfl | ⟨T, i, hT⟩
      · cases h2
      · rw [List.concat_eq_append] at hT
        subst hT
        exact hq T (by rw [Server.quiet_snoc T i h2])
    · exact h2

/-- After such a `NeedMoreInput` the next call of `next` hands out the queued response. -/
theorem C25_server_next_continues (L : Lib) (s : Server) (m : ServerMessage) (rest : List ServerMessage)
    (h1 : s.sendState.currentMessage = none) (h2 : s.sendState.queuedMessages = m :: rest) :
    ∃ s', s.next L = .ok (s', .error (.io (.output (m.bytes L)))) := by
  rw [Server.next_eq]
  cases m <;> simp [Server.progressSend, ServerSendState.next, h1, h2, ServerMessage.pushToBuffer, pushEncodedToBuffer,
    ServerMessage.bytes]

/-- The server asks for more input when everything was handed out. -/
example : ∃ s T1 T2, (Server.new ClientSample.g ServerSample.options ServerSample.greeting).trace Toy.lib
      ServerSample.commandOps = .ok (s, T1 ++ .starved :: T2) ∧ (∀ T, T1 ≠ T ++ [.quiet]) ∧
    (serverMessages ServerSample.greeting T1).length = 5 := by
  obtain ⟨s, h⟩ := ServerSample.command_run
  refine ⟨s, ServerSample.commandTrace.take 24, ServerSample.commandTrace.drop 25, h, ?_, by decide +kernel⟩
  intro T hT
  have := congrArg List.getLast? hT
  rw [List.getLast?_append, show [SItem.quiet].getLast?.or T.getLast? = some .quiet from rfl] at this
  revert this
  decide +kernel

end ImapFlow

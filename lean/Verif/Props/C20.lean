import Verif.Proofs.ServerReads
import Verif.Spec.ServerSamples

/-!
# C20: every sent event belongs to the output just handed out
-/

namespace ImapFlow

/-- A sent event is about the message of the last output (message number `n`); the events before it are
exactly the events of the messages before. -/
theorem C20_sent_after_output {L : Lib} {g : HandleGenerator} {o : ServerOptions} {gr : Greeting}
    {ops : List ServerOp} {s : Server} {T1 T2 : List SItem} {e : ServerEvent}
    (h : (Server.new g o gr).trace L ops = .ok (s, T1 ++ .sent e :: T2)) :
    ∃ n m, (serverOutputs T1).length = n + 1 ∧ (serverMessages gr T1)[n]? = some m ∧
      (serverOutputs T1)[n]? = some (m.bytes L) ∧ m.event = some e ∧
      serverSent T1 = ((serverMessages gr T1).take n).filterMap ServerMessage.event := by
  obtain ⟨s1, -, ⟨-, -, h3, -⟩, -⟩ := Server.prefix_inv h
  obtain ⟨h4, m, h5, h6⟩ := Server.trace_guard h
  have hs := Server.of_sent h
  rw [ServerView.of_outputs] at h4
  rw [ServerView.of_outputs, ServerView.of_messages] at h3
  rw [ServerView.of_messages] at h5
  refine ⟨_, m, h4, h5, ?_, h6, hs⟩
  rw [h3, List.getElem?_map, List.getElem?_take_of_lt (by omega), h5]
  rfl

/-- When the next message is handed out, exactly the events of all earlier messages were reported:
one for the greeting and each response of the user, none for responses of the server itself. -/
theorem C20_all_sent_before_output {L : Lib} {g : HandleGenerator} {o : ServerOptions} {gr : Greeting}
    {ops : List ServerOp} {s : Server} {T1 T2 : List SItem} {b : Bytes}
    (h : (Server.new g o gr).trace L ops = .ok (s, T1 ++ .output b :: T2)) :
    serverSent T1 =
      ((serverMessages gr T1).take (serverOutputs T1).length).filterMap ServerMessage.event := by
  obtain ⟨h4, -⟩ := Server.trace_guard h
  have hs := Server.of_sent h
  rw [ServerView.of_outputs] at h4
  rw [hs, h4]

/-- At any time the events are those of the messages handed out, except possibly the last one. -/
theorem C20_sent {L : Lib} {g : HandleGenerator} {o : ServerOptions} {gr : Greeting}
    {ops : List ServerOp} {s : Server} {T : List SItem} (h : (Server.new g o gr).trace L ops = .ok (s, T)) :
    ∃ n, serverSent T = ((serverMessages gr T).take n).filterMap ServerMessage.event ∧
      ((serverOutputs T).length = n ∨ (serverOutputs T).length = n + 1) := by
  have h' : (Server.new g o gr).trace L ops = .ok (s, T ++ []) := by rw [List.append_nil]; exact h
  obtain ⟨s1, -, ⟨-, -, -, h4⟩, -⟩ := Server.prefix_inv h'
  refine ⟨_, Server.of_sent h', ?_⟩
  rw [ServerView.of_outputs] at h4
  cases hc : s1.sendState.currentMessage with
  | none => rw [hc] at h4; exact .inl h4.symm
  | some m => rw [hc] at h4; exact .inr h4.1

/-- Three events for six messages. -/
example : serverSent ServerSample.commandTrace =
    [.greetingSent ServerSample.greeting,
     .responseSent (ServerSample.h 0) (.data (.other (ClientSample.str "d"))),
     .responseSent (ServerSample.h 1) (.status (.tagged (ClientSample.str "A") ⟨.ok, none, ClientSample.str "done"⟩))] ∧
    (serverOutputs ServerSample.commandTrace).length = 6 := by
  decide +kernel

end ImapFlow

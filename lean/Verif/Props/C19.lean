import Verif.Proofs.ServerReads
import Verif.Spec.ServerSamples

/-!
# C19: server output is the greeting followed by the responses in enqueue order, whole and exactly once
-/

namespace ImapFlow

/-- The outputs, one per call of `next`, are exactly the encodings of the first messages of: the
greeting, then all responses in the order in which they were enqueued. -/
theorem C19_server_output {L : Lib} {g : HandleGenerator} {o : ServerOptions} {gr : Greeting}
    {ops : List ServerOp} {s : Server} {T : List SItem} (h : (Server.new g o gr).trace L ops = .ok (s, T)) :
    ∃ n, n ≤ (serverMessages gr T).length ∧
      serverOutputs T = ((serverMessages gr T).take n).map (ServerMessage.bytes L) := by
  obtain ⟨s1, -, ⟨-, h2, h3, -⟩, -⟩ := Server.prefix_inv (T2 := []) (by rw [List.append_nil]; exact h)
  rw [ServerView.of_outputs, ServerView.of_messages] at h2 h3
  exact ⟨_, h2, h3⟩

/-- So the bytes handed out are the concatenation of whole messages. -/
theorem C19_server_output_bytes {L : Lib} {g : HandleGenerator} {o : ServerOptions} {gr : Greeting}
    {ops : List ServerOp} {s : Server} {T : List SItem} (h : (Server.new g o gr).trace L ops = .ok (s, T)) :
    ∃ n, n ≤ (serverMessages gr T).length ∧
      serverOutput T = ((serverMessages gr T).take n).flatMap (ServerMessage.bytes L) := by
  obtain ⟨n, h1, h2⟩ := C19_server_output h
  refine ⟨n, h1, ?_⟩
  rw [← ((ServerView.of_fields gr T).2.2.2.1), ServerView.of_outputs, h2, List.flatMap_def]

/-- Each call of `next` that outputs something hands out the next message that was not handed out. -/
theorem C19_server_next_output {L : Lib} {g : HandleGenerator} {o : ServerOptions} {gr : Greeting}
    {ops : List ServerOp} {s : Server} {T1 T2 : List SItem} {b : Bytes}
    (h : (Server.new g o gr).trace L ops = .ok (s, T1 ++ .output b :: T2)) :
    ∃ m, (serverMessages gr T1)[(serverOutputs T1).length]? = some m ∧ b = m.bytes L := by
  have hg := Server.trace_guard h
  obtain ⟨-, m, h1, h2⟩ := hg
  rw [ServerView.of_outputs, ServerView.of_messages] at h1
  exact ⟨m, h1, h2⟩

/-- Greeting, two responses of the user, two continuation requests and a rejection of the server. -/
example : serverOutputs ServerSample.commandTrace =
      ((serverMessages ServerSample.greeting ServerSample.commandTrace).take 6).map (ServerMessage.bytes Toy.lib) ∧
    (serverMessages ServerSample.greeting ServerSample.commandTrace).map (fun m => m.event.isSome) =
      [true, false, true, false, true, false] := by
  decide +kernel

/-- A response that was not handed out yet. -/
example : serverOutputs (ServerSample.queuedTrace.take 8) =
      ((serverMessages ServerSample.greeting (ServerSample.queuedTrace.take 8)).take 2).map (ServerMessage.bytes Toy.lib) ∧
    (serverMessages ServerSample.greeting (ServerSample.queuedTrace.take 8)).length = 3 := by
  decide +kernel

end ImapFlow

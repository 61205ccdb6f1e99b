import Verif.Proofs.HandleProcess
import Verif.Spec.ServerSamples

/-!
# C27: handles are unique
-/

namespace ImapFlow

/-- The handles given out by all clients of a process are pairwise different, for every interleaving of
creating clients and calling their methods. -/
theorem C27_client_handles_unique {L : Lib} {ops : List (ProcessOp (clientUser L))}
    {P : Process (clientUser L)} {hs : List (Nat × RawHandle)}
    (h : (Process.start (clientUser L)).run ops = .ok (P, hs)) (hb : P.instances.length ≤ 2 ^ 64)
    (hc : ∀ i, hs.countP (fun x => x.1 == i) ≤ 2 ^ 64) : (hs.map (·.2)).Nodup :=
  ProcessInv.run (H := []) (clientUser_faithful L) ⟨rfl, fun i s h => by simp [Process.start] at h, by simp⟩ h
    List.nodup_nil hb hc

/-- The handles given out by all servers of a process are pairwise different. -/
theorem C27_server_handles_unique {L : Lib} {ops : List (ProcessOp (serverUser L))}
    {P : Process (serverUser L)} {hs : List (Nat × RawHandle)}
    (h : (Process.start (serverUser L)).run ops = .ok (P, hs)) (hb : P.instances.length ≤ 2 ^ 64)
    (hc : ∀ i, hs.countP (fun x => x.1 == i) ≤ 2 ^ 64) : (hs.map (·.2)).Nodup :=
  ProcessInv.run (H := []) (serverUser_faithful L) ⟨rfl, fun i s h => by simp [Process.start] at h, by simp⟩ h
    List.nodup_nil hb hc

/-- Two servers, with interleaved calls. -/
example : ((Process.start (serverUser Toy.lib)).run
      [.create (ServerSample.options, ServerSample.greeting), .call 0 (.enqueueData (.other [])),
       .create (ServerSample.options, ServerSample.greeting), .call 1 (.enqueueData (.other [])),
       .call 0 (.enqueueInput (ClientSample.ln "A I")), .call 0 .next, .call 0 .next, .call 0 .next, .call 0 .next,
       .call 0 .next, .call 1 (.idleReject (.untagged ⟨.ok, none, []⟩)),
       .call 0 (.idleReject (.untagged ⟨.ok, none, []⟩)), .call 1 (.enqueueData (.other []))]).toOption.map (·.2) =
    some [(0, ⟨0, 0⟩), (1, ⟨1, 0⟩), (0, ⟨0, 1⟩), (1, ⟨1, 1⟩)] := by
  decide +kernel

/-- The counters wrap around, so the bound is needed. -/
example : (HandleGenerator.mk 3 18446744073709551615).generate = (⟨3, 0⟩, ⟨3, 18446744073709551615⟩) ∧
    (HandleGeneratorGenerator.mk 18446744073709551615).generate = (⟨0⟩, ⟨18446744073709551615, 0⟩) := by
  decide +kernel

end ImapFlow

import Verif.Proofs.NetMessages
import Verif.Spec.NetSamples

/-!
# C36: end to end, the server receives exactly the commands that the client enqueued

Every schedule of the system of `Spec/Net.lean`.  `GoodCommands` says that the enqueued commands are
regular, within the limits of the server, satisfy the codec round trip, and that the client reported no
rejection (which the user of the server can cause at any time by a tagged BAD).
-/

namespace ImapFlow

variable {L : Lib} {gc gs : HandleGenerator} {oc : ClientOptions} {os : ServerOptions} {gr : Greeting}
  {ops : List NetOp} {n : Net} {T : List NItem}

/-- The commands delivered to the user of the server are a beginning of the enqueued commands; the server
read nothing else, in particular reported no error. -/
theorem C36_server_receives_client (hL : L.Lawful) (h : (Net.new gc oc gs os gr).run L ops = .ok (n, T))
    (hmax : 0 < os.maxCommandSize) (hc : GoodCommands L os (clientItems T)) :
    serverCommands (serverItems T) <+: (clientEnqueued (clientItems T)).map (·.2) ∧
    (∀ e rs, .failed e rs ∉ serverItems T) ∧
    ∀ w e, .received w e ∈ serverItems T → ∃ c, e = .commandReceived c ∧ w = wire (L.encodeCommand c) := by
  obtain ⟨k, -, h2, -⟩ := (Net.run_linked h).commands hL hmax hc (T1 := serverItems T) (T2 := []) (by simp)
  have hm : ∀ i ∈ serverItems T, i.reads = true → ∃ c : Command, i = c.read L := by
    intro i hi hr
    have : i ∈ (serverItems T).filter SItem.reads := List.mem_filter.mpr ⟨hi, hr⟩
    rw [h2] at this
    obtain ⟨x, -, hx⟩ := List.mem_map.mp this
    exact ⟨x.2, hx.symm⟩
  refine ⟨?_, ?_, ?_⟩
  · rw [serverCommands_filter, h2, serverCommands_reads]
    exact (List.take_prefix _ _).map _
  · intro e rs hi
    obtain ⟨c, hc⟩ := hm _ hi rfl
    cases hc
  · intro w e hi
    obtain ⟨c, hc⟩ := hm _ hi rfl
    cases hc
    exact ⟨c, rfl, rfl⟩

/-- Whenever a command is delivered, all its bytes were handed out by the client before. -/
theorem C36_server_reads_output (h : (Net.new gc oc gs os gr).run L ops = .ok (n, T)) {T1 T2 : List NItem}
    (hT : T = T1 ++ T2) : serverTaken (serverItems T1) <+: clientOutput (clientItems T1) := by
  have hl := Net.run_linked h
  obtain ⟨sops, hs⟩ := hl.server
  rw [hT, serverItems_append] at hs
  obtain ⟨s1, hinv⟩ := Server.prefix_inv hs
  refine List.IsPrefix.trans ?_ (hl.causal T1 T2 hT).2
  rw [Server.given_eq hinv]
  exact List.prefix_append ..

/-- A run with three commands and literals of both kinds. -/
example : ∃ n T, NetSample.start.run Toy.lib NetSample.ops = .ok (n, T) ∧
    GoodCommands Toy.lib ServerSample.options (clientItems T) ∧ (serverCommands (serverItems T)).length = 3 := by
  obtain ⟨n, T, h, hf⟩ := NetSample.run
  refine ⟨n, T, h, NetSample.goodCommands hf, ?_⟩
  have := hf.2.1
  simp only at this
  rw [this]
  rfl

end ImapFlow

import Verif.Proofs.NetMessages
import Verif.Spec.NetSamples

/-!
# C35: end to end, the client decodes exactly what the server sent

Every schedule of the system of `Spec/Net.lean`: both users, both channels with every delay and every
fragmentation.  The hypothesis is the codec round trip for the messages enqueued in this run.
-/

namespace ImapFlow

variable {L : Lib} {gc gs : HandleGenerator} {oc : ClientOptions} {os : ServerOptions} {gr : Greeting}
  {ops : List NetOp} {n : Net} {T : List NItem}

/-- What the client has decoded is a beginning of what the server has enqueued, and the client reported no
error. -/
theorem C35_client_decodes_server (hL : L.Lawful) (h : (Net.new gc oc gs os gr).run L ops = .ok (n, T))
    (hrt : ∀ m ∈ serverMessages gr (serverItems T), m.RoundTrip L oc) :
    clientDecoded L (clientItems T) <+: (serverMessages gr (serverItems T)).map ServerMessage.content ∧
    ∀ e, .failed e ∉ clientItems T := by
  obtain ⟨k, -, -, h3, h4, -⟩ := (Net.run_linked h).reads hL hrt (T1 := clientItems T) (T2 := []) (by simp)
  refine ⟨?_, h4⟩
  rw [h3]
  exact (List.take_prefix _ _).map _

/-- The client decodes only what the server has handed out. -/
theorem C35_client_decodes_output (hL : L.Lawful) (h : (Net.new gc oc gs os gr).run L ops = .ok (n, T))
    (hrt : ∀ m ∈ serverMessages gr (serverItems T), m.RoundTrip L oc) :
    (clientDecoded L (clientItems T)).length ≤ (serverOutputs (serverItems T)).length := by
  obtain ⟨k, h1, -, h3, -, -⟩ := (Net.run_linked h).reads hL hrt (T1 := clientItems T) (T2 := []) (by simp)
  rw [h3, List.length_map, List.length_take]
  omega

/-- Nothing is lost: when nothing is on the way to the client and it asks for input, it has decoded every
message that the server handed out. -/
theorem C35_client_decodes_everything (hL : L.Lawful) (h : (Net.new gc oc gs os gr).run L ops = .ok (n, T))
    (hrt : ∀ m ∈ serverMessages gr (serverItems T), m.RoundTrip L oc) (hch : n.toClient = []) {T1 : List CItem}
    (hst : clientItems T = T1 ++ [.starved]) :
    clientDecoded L (clientItems T) =
      ((serverMessages gr (serverItems T)).take (serverOutputs (serverItems T)).length).map ServerMessage.content := by
  have hl := Net.run_linked h
  obtain ⟨k, h1, h2, h3, -, h5⟩ := hl.reads hL hrt hst
  obtain ⟨hle, hout⟩ := hl.output
  obtain ⟨cops, hc⟩ := hl.client
  obtain ⟨sops, hs⟩ := hl.server
  have hgiven := hl.toClient
  rw [hch, List.append_nil, hout, hst] at hgiven
  have hd : clientDecoded L (clientItems T) = clientDecoded L T1 := by
    rw [hst, clientDecoded_append]
    simp [clientDecoded, CItem.decoded]
  rw [hst] at hc
  have hk := Client.starved_reads hL hc ((Server.greetingFirst hs).take _)
    (fun m hm => hrt m (List.mem_of_mem_take hm))
    (by rw [← hgiven]; simp [clientGiven, CItem.given]) (k := k)
    (by rw [List.length_take]; omega) (by rw [List.take_take, Nat.min_eq_left h1]; exact h2) h5
  rw [List.length_take, Nat.min_eq_left hle] at hk
  rw [hd, h3, hk]

/-- A run in which the client decodes a greeting, two continuation requests that release literals, data
and an unsolicited continuation request. -/
example : ∃ n T, NetSample.start.run Toy.lib NetSample.ops = .ok (n, T) ∧
    (∀ m ∈ serverMessages ServerSample.greeting (serverItems T), m.RoundTrip Toy.lib .default) ∧
    (clientDecoded Toy.lib (clientItems T)).length = 5 := by
  obtain ⟨n, T, h, hf⟩ := NetSample.run
  refine ⟨n, T, h, NetSample.messages_roundTrip hf, ?_⟩
  rw [hf.2.2.2.1, hf.2.2.1]
  rfl

end ImapFlow

import Verif.Proofs.ClientReads
import Verif.Spec.ClientSamples

/-!
# C11: the client sends nothing before the greeting
-/

namespace ImapFlow

/-- Every output and every sending event comes after the greeting was reported. -/
theorem C11_nothing_before_greeting {L : Lib} (hL : L.Lawful) {g : HandleGenerator} {o : ClientOptions}
    {ops : List ClientOp} {c : Client} {T1 T2 : List CItem} {i : CItem}
    (h : (Client.new g o).trace L ops = .ok (c, T1 ++ i :: T2))
    (hi : (∃ b, i = .output b) ∨ ∃ e, i = .sent e) : clientGreeted T1 := by
  have hg := Client.trace_guard hL h
  rcases hi with ⟨b, rfl⟩ | ⟨e, rfl⟩
  · exact (ClientView.of_greeted T1).mp hg.1
  · exact (ClientView.of_greeted T1).mp hg.1

/-- Three queued commands wait for the greeting. -/
example : ∃ c, (Client.new ClientSample.g .default).trace Toy.lib ClientSample.literalOps =
      .ok (c, ClientSample.literalTrace) ∧
    ClientSample.literalTrace = ClientSample.literalTrace.take 6 ++
      .output (ClientSample.ln "A{xxx") :: ClientSample.literalTrace.drop 7 ∧
    ClientSample.literalTrace[3]? = some .starved := by
  obtain ⟨c, h⟩ := ClientSample.literal_run
  exact ⟨c, h, by decide +kernel, by decide +kernel⟩

end ImapFlow

import Verif.Proofs.ClientNext
import Verif.Spec.ClientSamples

/-!
# C13: every enqueued command is reported at most once, in enqueue order, with its own handle and content
-/

namespace ImapFlow

/-- The `n`-th terminal event reports the `n`-th enqueued command.  In particular there are at most as
many terminal events as enqueued commands. -/
theorem C13_terminal_events {L : Lib} (hL : L.Lawful) {g : HandleGenerator} {o : ClientOptions}
    {ops : List ClientOp} {c : Client} {T : List CItem}
    (h : (Client.new g o).trace L ops = .ok (c, T)) {n : Nat} {e : ClientEvent}
    (he : (clientTerminals T)[n]? = some e) :
    ∃ hd cmd, (clientEnqueued T)[n]? = some (hd, cmd) ∧ e.Reports hd cmd := by
  obtain ⟨h1, h2, h3, h4, h5⟩ := ClientView.of_fields T
  rw [← h4, List.getElem?_map] at he
  cases hen : (ClientView.of T).ended[n]? with
  | none => rw [hen] at he; cases he
  | some en =>
    rw [hen] at he
    simp only [Option.map_some, Option.some.injEq] at he
    subst he
    obtain ⟨⟨hd, cmd⟩, h6, h7⟩ := Client.trace_ended hL h n en hen
    rw [h3] at h6
    exact ⟨hd, cmd, h6, h7.reports⟩

theorem C13_at_most_once {L : Lib} (hL : L.Lawful) {g : HandleGenerator} {o : ClientOptions}
    {ops : List ClientOp} {c : Client} {T : List CItem}
    (h : (Client.new g o).trace L ops = .ok (c, T)) :
    (clientTerminals T).length ≤ (clientEnqueued T).length := by
  obtain ⟨h1, h2, h3, h4, h5⟩ := ClientView.of_fields T
  rw [← h4, ← h3, List.length_map]
  exact (Client.trace_inv hL h).1.1

/-- Three commands, three terminal events of two kinds. -/
example : ∃ c, (Client.new ClientSample.g .default).trace Toy.lib ClientSample.literalOps =
      .ok (c, ClientSample.literalTrace) ∧
    clientTerminals ClientSample.literalTrace =
      [.commandSent ClientSample.hA ClientSample.cmdA,
       .commandRejected ClientSample.hB ClientSample.cmdB
        (.tagged (ClientSample.str "B") ⟨.bad, none, ClientSample.str "no"⟩),
       .commandSent ClientSample.hC ClientSample.cmdC] := by
  obtain ⟨c, h⟩ := ClientSample.literal_run
  exact ⟨c, h, by decide +kernel⟩

/-- AUTHENTICATE and IDLE. -/
example : ∃ c, (Client.new ClientSample.g .default).trace Toy.lib ClientSample.authIdleOps =
      .ok (c, ClientSample.authIdleTrace) ∧
    clientTerminals ClientSample.authIdleTrace =
      [.authenticateStatusReceived ClientSample.hA ⟨ClientSample.str "A", .plain, none⟩
        (.tagged (ClientSample.str "A") ⟨.ok, none, ClientSample.str "done"⟩),
       .idleDoneSent ClientSample.hB] := by
  obtain ⟨c, h⟩ := ClientSample.authIdle_run
  exact ⟨c, h, by decide +kernel⟩

end ImapFlow

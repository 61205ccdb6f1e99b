import Verif.Proofs.ClientLiteral
import Verif.Spec.ClientSamples

/-!
# C18: every received response is reported exactly once and to the right consumer

Together with C03 (the taken bytes are exactly the input) and C10 (what is taken is what the framing says)
this covers every response.
-/

namespace ImapFlow

/-- Every event of the receiving side stems from one decoded message and carries it unchanged. -/
theorem C18_event_carries_message {L : Lib} (hL : L.Lawful) {g : HandleGenerator} {o : ClientOptions}
    {ops : List ClientOp} {c : Client} {T1 T2 : List CItem} {w : Bytes} {e : ClientEvent}
    (ht : (Client.new g o).trace L ops = .ok (c, T1 ++ .received w e :: T2)) :
    (¬ clientGreeted T1 ∧ ∃ gr, e = .greetingReceived gr ∧ IsMessage (greetingFraming L o.crlfRelaxed) w gr) ∨
    (clientGreeted T1 ∧ ∃ r, e.response? = some r ∧ IsMessage (responseFraming L o.crlfRelaxed) w r) := by
  have hgr := ClientView.of_greeted T1
  obtain ⟨-, -, ⟨h1, h2⟩ | ⟨h1, r, h2, h3⟩⟩ := Client.trace_guard hL ht
  · refine .inl ⟨fun h => ?_, h2⟩
    rw [hgr.mpr h] at h1; cases h1
  · exact .inr ⟨hgr.mp h1, r, route_response h2, h3⟩

/-- The only message without an event is a continuation request received while a literal is pending. -/
theorem C18_silent_message {L : Lib} (hL : L.Lawful) {g : HandleGenerator} {o : ClientOptions}
    {ops : List ClientOp} {c : Client} {T1 T2 : List CItem} {w : Bytes}
    (ht : (Client.new g o).trace L ops = .ok (c, T1 ++ .released w :: T2)) :
    clientGreeted T1 ∧ (∃ h cmd d, PendingLiteral L (ClientView.of T1) h cmd d) ∧
    ∃ q, IsMessage (responseFraming L o.crlfRelaxed) w (.continuationRequest q) := by
  obtain ⟨h0, hw, -, q, h1, h2⟩ := Client.trace_guard hL ht
  exact ⟨(ClientView.of_greeted T1).mp h0, route_none hw h1, q, h2⟩

/-- Who gets a continuation request: the pending literal, else the running AUTHENTICATE if all its earlier
requests were answered, else the running IDLE if it was not accepted yet, else the user. -/
theorem C18_continuation_consumer {L : Lib} (hL : L.Lawful) {g : HandleGenerator} {o : ClientOptions}
    {ops : List ClientOp} {c : Client} {T1 T2 : List CItem} {w : Bytes} {i : CItem} {q : ContinuationRequest}
    (ht : (Client.new g o).trace L ops = .ok (c, T1 ++ i :: T2)) (hi : i = .released w ∨ ∃ e, i = .received w e)
    (hg : clientGreeted T1) (hm : IsMessage (responseFraming L o.crlfRelaxed) w (.continuationRequest q)) :
    (∀ h cmd d, PendingLiteral L (ClientView.of T1) h cmd d → i = .released w) ∧
    (∀ h cmd, (ClientView.of T1).current = some (h, cmd) → cmd.isAuthenticate = true →
      ((ClientView.of T1).asked = (ClientView.of T1).datas.length →
        i = .received w (.authenticateContinuationRequestReceived h q)) ∧
      ((ClientView.of T1).asked ≠ (ClientView.of T1).datas.length →
        i = .received w (.continuationRequestReceived q))) ∧
    (∀ h cmd, (ClientView.of T1).current = some (h, cmd) → cmd.isIdle = true →
      ((ClientView.of T1).accepted = false → i = .received w (.idleAccepted h q)) ∧
      ((ClientView.of T1).accepted = true → i = .received w (.continuationRequestReceived q))) ∧
    ((ClientView.of T1).current = none → i = .received w (.continuationRequestReceived q)) := by
  have key : (i = .released w ∧ (ClientView.of T1).route (.continuationRequest q) = none) ∨
      ∃ e, i = .received w e ∧ (ClientView.of T1).route (.continuationRequest q) = some e := by
    have hgd := Client.trace_guard hL ht
    rcases hi with rfl | ⟨e, rfl⟩
    · obtain ⟨-, -, -, q', h1, h2⟩ := hgd
      cases h2.det hm
      exact .inl ⟨rfl, h1⟩
    · obtain ⟨-, -, ⟨h1, -⟩ | ⟨-, r, h1, h2⟩⟩ := hgd
      · rw [(ClientView.of_greeted T1).mpr hg] at h1; cases h1
      · rw [h2.det hm] at h1
        exact .inr ⟨e, rfl, h1⟩
  refine ⟨?_, ?_, ?_, ?_⟩
  · intro h cmd d hp
    obtain ⟨b, hb⟩ := Command.body_of_regular hp.2.1
    rcases key with ⟨h1, -⟩ | ⟨e, -, h1⟩
    · exact h1
    · simp [ClientView.route, hp.1, hb] at h1
  · intro h cmd hcur ha
    obtain ⟨m, ir, hb⟩ := Command.body_of_authenticate ha
    refine ⟨fun he => ?_, fun he => ?_⟩
    · rcases key with ⟨-, h1⟩ | ⟨e, h0, h1⟩
      · simp [ClientView.route, hcur, hb, he] at h1
      · simp [ClientView.route, hcur, hb, he] at h1
        rw [h0, h1]
    · rcases key with ⟨-, h1⟩ | ⟨e, h0, h1⟩
      · simp [ClientView.route, hcur, hb, he] at h1
      · simp [ClientView.route, hcur, hb, he] at h1
        rw [h0, h1]
  · intro h cmd hcur ha
    have hb := Command.body_of_idle ha
    refine ⟨fun he => ?_, fun he => ?_⟩
    · rcases key with ⟨-, h1⟩ | ⟨e, h0, h1⟩
      · simp [ClientView.route, hcur, hb, he] at h1
      · simp [ClientView.route, hcur, hb, he] at h1
        rw [h0, h1]
    · rcases key with ⟨-, h1⟩ | ⟨e, h0, h1⟩
      · simp [ClientView.route, hcur, hb, he] at h1
      · simp [ClientView.route, hcur, hb, he] at h1
        rw [h0, h1]
  · intro hcur
    rcases key with ⟨-, h1⟩ | ⟨e, h0, h1⟩
    · simp [ClientView.route, hcur] at h1
    · simp [ClientView.route, hcur] at h1
      rw [h0, h1]

/-- A continuation request is taken by a pending literal, one by AUTHENTICATE, and one by IDLE. -/
example : (∃ c, (Client.new ClientSample.g .default).trace Toy.lib ClientSample.literalOps =
      .ok (c, ClientSample.literalTrace)) ∧
    ClientSample.literalTrace[9]? = some (.released (ClientSample.ln "+ok")) ∧
    (∃ c, (Client.new ClientSample.g .default).trace Toy.lib ClientSample.authIdleOps =
      .ok (c, ClientSample.authIdleTrace)) ∧
    ClientSample.authIdleTrace[8]? = some (.received (ClientSample.ln "+go")
      (.authenticateContinuationRequestReceived ClientSample.hA (.basic none (ClientSample.str "go")))) ∧
    ClientSample.authIdleTrace[20]? = some (.received (ClientSample.ln "+idling")
      (.idleAccepted ClientSample.hB (.basic none (ClientSample.str "idling")))) := by
  exact ⟨ClientSample.literal_run, by decide +kernel, ClientSample.authIdle_run, by decide +kernel, by decide +kernel⟩

end ImapFlow

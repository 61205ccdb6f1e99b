import Verif.Proofs.ClientLiteral
import Verif.Spec.ClientSamples

/-!
# C17: IDLE: DONE only after acceptance, nothing else in between
-/

namespace ImapFlow

/-- `set_idle_done` returns a handle exactly if the running command is an IDLE that was accepted and for
which it did not succeed before. -/
theorem C17_set_idle_done {L : Lib} (hL : L.Lawful) {g : HandleGenerator} {o : ClientOptions}
    {ops : List ClientOp} {c : Client} {T1 T2 : List CItem} {r : Option RawHandle}
    (ht : (Client.new g o).trace L ops = .ok (c, T1 ++ .setDone r :: T2)) (h : RawHandle) :
    r = some h ↔ ∃ cmd, (ClientView.of T1).current = some (h, cmd) ∧ cmd.isIdle = true ∧
      (ClientView.of T1).accepted = true ∧ (ClientView.of T1).doneSet = false := by
  have hr : r = (ClientView.of T1).doneReply := Client.trace_guard hL ht
  rw [hr]
  unfold ClientView.doneReply
  cases hc : (ClientView.of T1).current with
  | none => simp
  | some x =>
    obtain ⟨h', cmd⟩ := x
    simp only
    split
    · rename_i hcond
      constructor
      · intro he; cases he; exact ⟨cmd, rfl, hcond⟩
      · rintro ⟨cmd', he, -⟩
        cases he; rfl
    · rename_i hcond
      constructor
      · intro he; cases he
      · rintro ⟨cmd', he, h2⟩
        cases he
        exact (hcond h2).elim

/-- A refused `set_idle_done` changes nothing, in every state. -/
theorem C17_refused_unchanged {L : Lib} {c c' : Client} (h : c.setIdleDone L = .ok (c', none)) : c' = c := by
  unfold Client.setIdleDone at h
  split at h
  · cases h
  · rename_i s r heq
    simp only [Except.ok.injEq, Prod.mk.injEq] at h
    obtain ⟨h1, rfl⟩ := h
    unfold ClientSendState.setIdleDone at heq
    have hs : s = c.sendState := by
      repeat' split at heq
      all_goals first
        | (simp at heq; done)
        | (simp only [Except.ok.injEq, Prod.mk.injEq] at heq
           exact heq.1.symm)
    rw [← h1, hs]

/-- After the line of a running IDLE nothing but DONE is output, and DONE only if the IDLE was accepted
and DONE requested. -/
theorem C17_only_done_output {L : Lib} (hL : L.Lawful) {g : HandleGenerator} {o : ClientOptions}
    {ops : List ClientOp} {c : Client} {T1 T2 : List CItem} {b : Bytes} {h : RawHandle} {cmd : Command}
    (ht : (Client.new g o).trace L ops = .ok (c, T1 ++ .output b :: T2))
    (hcur : (ClientView.of T1).current = some (h, cmd)) (ha : cmd.isIdle = true) :
    (ClientView.of T1).sent = wire (L.encodeCommand cmd) ∧ (ClientView.of T1).accepted = true ∧
      (ClientView.of T1).doneSet = true ∧ b = wire L.encodeIdleDone := by
  obtain ⟨-, -, h', cmd', q', h1, h2⟩ := Client.trace_guard hL ht
  obtain ⟨q, hrem⟩ := ClientView.remaining_of_current hcur
  rw [hrem] at h1
  cases h1
  obtain ⟨hn1, hn2⟩ := (Command.kind_excl cmd).2 ha
  rcases h2 with ⟨h3, -⟩ | ⟨h3, -⟩ | ⟨-, -, ⟨h3, -⟩ | h3⟩
  · rw [hn1] at h3; cases h3
  · rw [hn2] at h3; cases h3
  · rw [ClientView.current, if_pos h3] at hcur; cases hcur
  · exact h3

/-- A requested DONE is output by the next `next`. -/
theorem C17_done_output_next {L : Lib} (hL : L.Lawful) {g : HandleGenerator} {o : ClientOptions}
    {ops : List ClientOp} {c : Client} {T1 U T2 : List CItem} {i : CItem} {h : RawHandle}
    (ht : (Client.new g o).trace L ops = .ok (c, T1 ++ .setDone (some h) :: (U ++ i :: T2)))
    (hU : ∀ j ∈ U, j.isNext = false) (hi : i.isNext = true) :
    i = .output (wire L.encodeIdleDone) := by
  obtain ⟨c1, hinv⟩ := Client.trace_prefix_inv hL ht
  have h1 := setDone_pending hinv (Client.trace_guard hL ht)
  rw [← ClientView.of_snoc] at h1
  have ht' : (Client.new g o).trace L ops = .ok (c, (T1 ++ [.setDone (some h)]) ++ U ++ (i :: T2)) := by
    rw [ht]; simp
  have h2 := Client.skip hL (P := fun v => DonePending L v)
    (fun v i hp hg hi => hp.skip hL hg hi) ht' h1 hU
  exact h2.next hL (Client.trace_guard hL ht') hi

/-- A tagged status with the tag of the running IDLE ends it. -/
theorem C17_status_ends {L : Lib} (hL : L.Lawful) {g : HandleGenerator} {o : ClientOptions}
    {ops : List ClientOp} {c : Client} {T1 T2 : List CItem} {w : Bytes} {e : ClientEvent} {h : RawHandle}
    {cmd : Command} {body : StatusBody} (hg : clientGreeted T1)
    (ht : (Client.new g o).trace L ops = .ok (c, T1 ++ .received w e :: T2))
    (hcur : (ClientView.of T1).current = some (h, cmd)) (ha : cmd.isIdle = true)
    (hm : IsMessage (responseFraming L o.crlfRelaxed) w (.status (.tagged cmd.tag body))) :
    e = .idleRejected h (.tagged cmd.tag body) := by
  obtain ⟨-, -, ⟨h1, -⟩ | ⟨-, r, h1, h2⟩⟩ := Client.trace_guard hL ht
  · rw [(ClientView.of_greeted T1).mpr hg] at h1; cases h1
  · rw [h2.det hm] at h1
    simp only [ClientView.route, hcur, Command.body_of_idle ha, if_pos, Option.some.injEq] at h1
    exact h1.symm

/-- DONE requested too early is refused; requested after acceptance it succeeds once and is output. -/
example : ∃ c, (Client.new ClientSample.g .default).trace Toy.lib ClientSample.authIdleOps =
      .ok (c, ClientSample.authIdleTrace.take 22 ++ .setDone (some ClientSample.hB) ::
        ([.setDone none] ++ .output (ClientSample.ln "D") :: ClientSample.authIdleTrace.drop 25)) ∧
    ClientSample.authIdleTrace[18]? = some (.setDone none) ∧
    (ClientView.of (ClientSample.authIdleTrace.take 22)).current = some (ClientSample.hB, ClientSample.idleB) := by
  obtain ⟨c, h⟩ := ClientSample.authIdle_run
  exact ⟨c, h, by decide +kernel, by decide +kernel⟩

end ImapFlow

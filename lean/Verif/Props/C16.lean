import Verif.Proofs.ClientLiteral
import Verif.Spec.ClientSamples

/-!
# C16: AUTHENTICATE data is taken exactly when the server asked for it
-/

namespace ImapFlow

/-- `set_authenticate_data` succeeds exactly if the running command is an AUTHENTICATE and the number of
`AuthenticateContinuationRequestReceived` reported for it exceeds the number of data accepted for it; then
it returns the handle of that command, otherwise the data. -/
theorem C16_set_authenticate_data {L : Lib} (hL : L.Lawful) {g : HandleGenerator} {o : ClientOptions}
    {ops : List ClientOp} {c : Client} {T1 T2 : List CItem} {d : AuthenticateData}
    {r : Except AuthenticateData RawHandle}
    (ht : (Client.new g o).trace L ops = .ok (c, T1 ++ .setAuth d r :: T2)) :
    (∀ h, r = .ok h ↔ ∃ cmd, (ClientView.of T1).current = some (h, cmd) ∧ cmd.isAuthenticate = true ∧
      (ClientView.of T1).asked = (ClientView.of T1).datas.length + 1) ∧
    (∀ d', r = .error d' → d' = d) := by
  have hr : r = (ClientView.of T1).authReply d := Client.trace_guard hL ht
  rw [hr]
  unfold ClientView.authReply
  cases hc : (ClientView.of T1).current with
  | none =>
    refine ⟨fun h => ⟨fun he => (by cases he), ?_⟩, fun d' he => by cases he; rfl⟩
    rintro ⟨cmd', he, -⟩
    cases he
  | some x =>
    obtain ⟨h', cmd⟩ := x
    simp only
    split
    · rename_i hcond
      refine ⟨fun h => ⟨fun he => ?_, ?_⟩, fun d' he => by cases he⟩
      · cases he; exact ⟨cmd, rfl, hcond⟩
      · rintro ⟨cmd', he, -⟩
        cases he; rfl
    · rename_i hcond
      refine ⟨fun h => ⟨fun he => (by cases he), ?_⟩, fun d' he => by cases he; rfl⟩
      rintro ⟨cmd', he, h2⟩
      cases he
      exact (hcond h2).elim

/-- A refused `set_authenticate_data` changes nothing, in every state. -/
theorem C16_refused_unchanged {L : Lib} {c c' : Client} {d d' : AuthenticateData}
    (h : c.setAuthenticateData L d = .ok (c', .error d')) : c' = c ∧ d' = d := by
  unfold Client.setAuthenticateData at h
  split at h
  · cases h
  · rename_i s r heq
    simp only [Except.ok.injEq, Prod.mk.injEq] at h
    obtain ⟨h1, rfl⟩ := h
    unfold ClientSendState.setAuthenticateData at heq
    have hs : s = c.sendState ∧ d' = d := by
      repeat' split at heq
      all_goals first
        | (simp at heq; done)
        | (simp only [Except.ok.injEq, Prod.mk.injEq, Except.error.injEq] at heq
           exact ⟨heq.1.symm, heq.2.symm⟩)
    rw [← h1, hs.1]
    exact ⟨rfl, hs.2⟩

/-- Accepted data is output by the next `next`, as one line and nothing else. -/
theorem C16_data_output_next {L : Lib} (hL : L.Lawful) {g : HandleGenerator} {o : ClientOptions}
    {ops : List ClientOp} {c : Client} {T1 U T2 : List CItem} {i : CItem} {d : AuthenticateData} {h : RawHandle}
    (ht : (Client.new g o).trace L ops = .ok (c, T1 ++ .setAuth d (.ok h) :: (U ++ i :: T2)))
    (hU : ∀ j ∈ U, j.isNext = false) (hi : i.isNext = true) :
    i = .output (wire (L.encodeAuthenticateData d)) := by
  obtain ⟨c1, hinv⟩ := Client.trace_prefix_inv hL ht
  have h1 := setAuth_pending hinv (Client.trace_guard hL ht)
  rw [← ClientView.of_snoc] at h1
  have ht' : (Client.new g o).trace L ops = .ok (c, (T1 ++ [.setAuth d (.ok h)]) ++ U ++ (i :: T2)) := by
    rw [ht]; simp
  have h2 := Client.skip hL (P := fun v => DataPending L v d)
    (fun v i hp hg hi => hp.skip hL hg hi) ht' h1 hU
  exact h2.next hL (Client.trace_guard hL ht') hi

/-- Data lines are output only for accepted data: an output of a running AUTHENTICATE after its command
line is the line of the last accepted data, and every request before was answered. -/
theorem C16_output_is_accepted_data {L : Lib} (hL : L.Lawful) {g : HandleGenerator} {o : ClientOptions}
    {ops : List ClientOp} {c : Client} {T1 T2 : List CItem} {b : Bytes} {h : RawHandle} {cmd : Command}
    (ht : (Client.new g o).trace L ops = .ok (c, T1 ++ .output b :: T2))
    (hcur : (ClientView.of T1).current = some (h, cmd)) (ha : cmd.isAuthenticate = true) :
    ∃ ds d, (ClientView.of T1).datas = ds ++ [d] ∧ (ClientView.of T1).asked = ds.length + 1 ∧
      (ClientView.of T1).sent = wire (L.encodeCommand cmd) ++ wireDatas L ds ∧
      b = wire (L.encodeAuthenticateData d) := by
  obtain ⟨-, -, h', cmd', q', h1, h2⟩ := Client.trace_guard hL ht
  obtain ⟨q, hrem⟩ := ClientView.remaining_of_current hcur
  rw [hrem] at h1
  cases h1
  obtain ⟨hn1, hn2⟩ := (Command.kind_excl cmd).1 ha
  rcases h2 with ⟨h3, -⟩ | ⟨-, ⟨h3, -⟩ | ⟨ds, d, h3, h4, h5, h6⟩⟩ | ⟨h3, -⟩
  · rw [hn1] at h3; cases h3
  · rw [ClientView.current, if_pos h3] at hcur; cases hcur
  · exact ⟨ds, d, h3, by rw [h4, h3]; simp, h5, h6⟩
  · rw [hn2] at h3; cases h3

/-- A tagged status with the tag of the running AUTHENTICATE ends it. -/
theorem C16_status_ends {L : Lib} (hL : L.Lawful) {g : HandleGenerator} {o : ClientOptions}
    {ops : List ClientOp} {c : Client} {T1 T2 : List CItem} {w : Bytes} {e : ClientEvent} {h : RawHandle}
    {cmd : Command} {body : StatusBody} (hg : clientGreeted T1)
    (ht : (Client.new g o).trace L ops = .ok (c, T1 ++ .received w e :: T2))
    (hcur : (ClientView.of T1).current = some (h, cmd)) (ha : cmd.isAuthenticate = true)
    (hm : IsMessage (responseFraming L o.crlfRelaxed) w (.status (.tagged cmd.tag body))) :
    ∃ ca, cmd = ⟨ca.tag, .authenticate ca.mechanism ca.initialResponse⟩ ∧ e = .authenticateStatusReceived h ca (.tagged cmd.tag body) := by
  obtain ⟨-, -, ⟨h1, -⟩ | ⟨-, r, h1, h2⟩⟩ := Client.trace_guard hL ht
  · rw [(ClientView.of_greeted T1).mpr hg] at h1; cases h1
  · rw [h2.det hm] at h1
    obtain ⟨m, ir, hb⟩ := Command.body_of_authenticate ha
    simp only [ClientView.route, hcur, hb, if_pos, Option.some.injEq] at h1
    refine ⟨⟨cmd.tag, m, ir⟩, ?_, h1.symm⟩
    obtain ⟨tag, bd⟩ := cmd
    simp only at hb
    simp [hb]

/-- One round: data offered too early is refused, asked data is accepted, data offered again is refused,
the accepted data is output next. -/
example : ∃ c, (Client.new ClientSample.g .default).trace Toy.lib ClientSample.authIdleOps =
      .ok (c, ClientSample.authIdleTrace.take 10 ++
        .setAuth (.continue (ClientSample.str "pw")) (.ok ClientSample.hA) ::
        ([.setAuth (.continue (ClientSample.str "again")) (.error (.continue (ClientSample.str "again")))] ++
          .output (ClientSample.ln "Dpw") :: ClientSample.authIdleTrace.drop 13)) ∧
    ClientSample.authIdleTrace[4]? = some (.setAuth (.continue (ClientSample.str "early"))
      (.error (.continue (ClientSample.str "early")))) ∧
    (ClientView.of (ClientSample.authIdleTrace.take 10)).current = some (ClientSample.hA, ClientSample.authA) := by
  obtain ⟨c, h⟩ := ClientSample.authIdle_run
  exact ⟨c, h, by decide +kernel, by decide +kernel⟩

end ImapFlow

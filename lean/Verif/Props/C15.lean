import Verif.Proofs.ClientLiteral
import Verif.Proofs.ClientEnded
import Verif.Spec.ClientSamples
import Verif.Props.C10

/-!
# C15: a tagged BAD during a literal rejects exactly that command
-/

namespace ImapFlow

/-- `CommandRejected` is reported only for the command with a pending literal, and only because of a
tagged BAD with its tag. -/
theorem C15_rejected {L : Lib} (hL : L.Lawful) {g : HandleGenerator} {o : ClientOptions}
    {ops : List ClientOp} {c : Client} {T1 T2 : List CItem} {w : Bytes} {h : RawHandle} {cmd : Command}
    {st : Status} (ht : (Client.new g o).trace L ops = .ok (c, T1 ++ .received w (.commandRejected h cmd st) :: T2)) :
    (∃ d, PendingLiteral L (ClientView.of T1) h cmd d) ∧
    (∃ body, st = .tagged cmd.tag body ∧ body.kind = .bad) ∧
    IsMessage (responseFraming L o.crlfRelaxed) w (.status st) := by
  obtain ⟨hw, -, ⟨-, _, h1, -⟩ | ⟨hgr, r, h1, h2⟩⟩ := Client.trace_guard hL ht
  · cases h1
  · have hr := route_response h1
    cases hr
    unfold ClientView.route at h1
    simp only at h1
    split at h1
    · rename_i h' cmd' tag body hcur
      split at h1
      · rename_i htag
        split at h1
        · rename_i o' ho
          split at h1
          · rename_i hbad
            cases h1
            exact ⟨(hw hgr).pending hcur (by simp [Command.isRegular, ho]), ⟨body, by rw [htag], hbad⟩, h2⟩
          · cases h1
        · cases h1
        · cases h1
      · cases h1
    · cases h1

/-- A tagged BAD with the tag of the command with a pending literal rejects it: the item that takes this
message from the input is `CommandRejected`. -/
theorem C15_bad_rejects {L : Lib} (hL : L.Lawful) {g : HandleGenerator} {o : ClientOptions}
    {ops : List ClientOp} {c : Client} {T1 T2 : List CItem} {i : CItem} {w d : Bytes} {h : RawHandle}
    {cmd : Command} {body : StatusBody}
    (ht : (Client.new g o).trace L ops = .ok (c, T1 ++ i :: T2)) (hg : clientGreeted T1)
    (hp : PendingLiteral L (ClientView.of T1) h cmd d) (hw : w <+: clientUnread T1)
    (hm : IsMessage (responseFraming L o.crlfRelaxed) w (.status (.tagged cmd.tag body)))
    (hb : body.kind = .bad) (hi : i.taken ≠ []) :
    i = .received w (.commandRejected h cmd (.tagged cmd.tag body)) := by
  obtain ⟨b, hbody⟩ := Command.body_of_regular hp.2.1
  rcases C10_client_reads_it hL ht hg hw hm hi with rfl | ⟨e, h1, rfl⟩
  · obtain ⟨-, -, -, q, -, h2⟩ := Client.trace_guard hL ht
    cases h2.det hm
  · simp [ClientView.route, hp.1, hbody, hb] at h1
    rw [← h1]

/-- Any other status is reported as `StatusReceived` while a literal is pending. -/
theorem C15_other_status {L : Lib} (hL : L.Lawful) {g : HandleGenerator} {o : ClientOptions}
    {ops : List ClientOp} {c : Client} {T1 T2 : List CItem} {i : CItem} {w d : Bytes} {h : RawHandle}
    {cmd : Command} {st : Status}
    (ht : (Client.new g o).trace L ops = .ok (c, T1 ++ i :: T2)) (hg : clientGreeted T1)
    (hp : PendingLiteral L (ClientView.of T1) h cmd d) (hw : w <+: clientUnread T1)
    (hm : IsMessage (responseFraming L o.crlfRelaxed) w (.status st))
    (hst : ∀ body, body.kind = .bad → st ≠ .tagged cmd.tag body) (hi : i.taken ≠ []) :
    i = .received w (.statusReceived st) ∧
    PendingLiteral L (ClientView.of (T1 ++ [i])) h cmd d := by
  obtain ⟨b, hbody⟩ := Command.body_of_regular hp.2.1
  have hi' : i = .received w (.statusReceived st) := by
    rcases C10_client_reads_it hL ht hg hw hm hi with rfl | ⟨e, h1, rfl⟩
    · obtain ⟨-, -, -, q, -, h2⟩ := Client.trace_guard hL ht
      cases h2.det hm
    · unfold ClientView.route at h1
      simp only [hp.1] at h1
      split at h1
      · rename_i tag body heq
        cases heq
        split at h1
        · rename_i htag
          simp only [hbody] at h1
          split at h1
          · rename_i hb
            exact (hst body hb (by rw [htag])).elim
          · cases h1; rfl
        · cases h1; rfl
      · cases h1; rfl
  subst hi'
  refine ⟨rfl, ?_⟩
  rw [ClientView.of_snoc]
  exact hp

/-- `StatusReceived` leaves the sending side unchanged, in every state. -/
theorem C15_status_untouched {L : Lib} {c c' : Client} {st : Status}
    (h : c.progressReceive L = .ok (c', .ok (some (.statusReceived st)))) : c'.sendState = c.sendState := by
  unfold Client.progressReceive at h
  split at h
  · split at h
    · cases h
    · simp at h
    · split at h <;> simp at h
  · split at h
    · cases h
    · simp at h
    · rename_i r hr
      simp only [Except.ok.injEq, Prod.mk.injEq] at h
      obtain ⟨h1, h2⟩ := h
      rw [← h1]
      unfold dispatchResponse at h2 ⊢
      cases r with
      | data d => simp at h2
      | status st' =>
        simp only at h2 ⊢
        split at h2 <;> first | (simp at h2; done) | skip
        rename_i s' heq
        simp only
        unfold ClientSendState.maybeTerminate at heq
        repeat' split at heq
        all_goals first | (simp at heq; done) | (simp only [Prod.mk.injEq, and_true] at heq; exact heq.symm)
      | continuationRequest q =>
        simp only at h2
        repeat' split at h2
        all_goals simp at h2
  · cases h

/-- After a terminal event, in particular after `CommandRejected`, the following `next` starts the next
enqueued command. -/
theorem C15_next_command {L : Lib} (hL : L.Lawful) {g : HandleGenerator} {o : ClientOptions}
    {ops : List ClientOp} {c : Client} {T1 U T2 : List CItem} {i j : CItem} {e : ClientEvent}
    {x : RawHandle × Command}
    (ht : (Client.new g o).trace L ops = .ok (c, T1 ++ j :: (U ++ i :: T2)))
    (hj : j.terminal? = some e) (hU : ∀ k ∈ U, k.isNext = false) (hi : i.isNext = true)
    (hx : (clientEnqueued (T1 ++ j :: U))[(clientTerminals (T1 ++ [j])).length]? = some x) :
    ∃ b, i = .output b ∧ b ≠ [] ∧ b <+: wire (L.encodeCommand x.2) := by
  have hgd := Client.trace_guard hL ht
  have ht' : (Client.new g o).trace L ops = .ok (c, (T1 ++ [j]) ++ U ++ (i :: T2)) := by
    rw [ht]; simp
  have hfresh : ∀ v : ClientView, v.event e = v.terminate e := by
    intro v
    have : e.isTerminal = true := by
      unfold CItem.terminal? at hj
      rw [Option.filter_eq_some_iff] at hj
      exact hj.2
    unfold ClientView.event
    simp only [this, if_true]
  have h1 : (fun v : ClientView => v.greeted = true ∧ v.sent = [] ∧
      v.ended.length = (clientTerminals (T1 ++ [j])).length) (ClientView.of (T1 ++ [j])) := by
    have hl : (ClientView.of (T1 ++ [j])).ended.length = (clientTerminals (T1 ++ [j])).length := by
      obtain ⟨-, -, -, h4, -⟩ := ClientView.of_fields (T1 ++ [j])
      rw [← h4, List.length_map]
    refine ⟨?_, ?_, hl⟩
    · rw [ClientView.of_snoc]
      cases j with
      | sent e' =>
        have : e' = e := by
          simp [CItem.terminal?, CItem.event?, Option.filter_eq_some_iff] at hj
          exact hj.1
        subst this
        simp only [ClientView.observe, hfresh, ClientView.terminate]
        exact hgd.1
      | received w e' =>
        have : e' = e := by
          simp [CItem.terminal?, CItem.event?, Option.filter_eq_some_iff] at hj
          exact hj.1
        subst this
        simp only [ClientView.observe, hfresh, ClientView.terminate]
        obtain ⟨-, -, ⟨-, g', h2, -⟩ | ⟨h2, -⟩⟩ := hgd
        · subst h2
          simp [CItem.terminal?, CItem.event?, ClientEvent.isTerminal] at hj
        · exact h2
      | _ => simp [CItem.terminal?, CItem.event?] at hj
    · rw [ClientView.of_snoc]
      cases j with
      | sent e' =>
        have : e' = e := by
          simp [CItem.terminal?, CItem.event?, Option.filter_eq_some_iff] at hj
          exact hj.1
        subst this
        simp only [ClientView.observe, hfresh, ClientView.terminate]
      | received w e' =>
        have : e' = e := by
          simp [CItem.terminal?, CItem.event?, Option.filter_eq_some_iff] at hj
          exact hj.1
        subst this
        simp only [ClientView.observe, hfresh, ClientView.terminate]
      | _ => simp [CItem.terminal?, CItem.event?] at hj
  have h2 := Client.skip hL (P := fun v : ClientView => v.greeted = true ∧ v.sent = [] ∧
      v.ended.length = (clientTerminals (T1 ++ [j])).length) (by
    intro v i hp hg hi
    cases i with
    | setAuth d r => cases r <;> exact hp
    | setDone r => cases r <;> exact hp
    | enqueue => exact hp
    | input => exact hp
    | _ => cases hi) ht' h1 hU
  obtain ⟨e1, e2, e3⟩ := h2
  obtain ⟨-, -, f3, -, -⟩ := ClientView.of_fields (T1 ++ [j] ++ U)
  have hrem : ∃ q, (ClientView.of (T1 ++ [j] ++ U)).remaining = x :: q := by
    rw [ClientView.remaining, e3, f3]
    have hx' : (clientEnqueued (T1 ++ [j] ++ U))[(clientTerminals (T1 ++ [j])).length]? = some x := by
      rw [← hx]; simp
    obtain ⟨hlt, hget⟩ := List.getElem?_eq_some_iff.mp hx'
    exact ⟨_, by rw [List.drop_eq_getElem_cons hlt, hget]⟩
  obtain ⟨q, hq⟩ := hrem
  exact next_starts hL (Client.trace_guard hL ht') hi e1 e2 hq

/-- After a terminal event, in particular after `CommandRejected`, no further byte of the command is output: all output consists
of segments of the commands that were enqueued after it. -/
theorem C15_nothing_more {L : Lib} (hL : L.Lawful) {g : HandleGenerator} {o : ClientOptions}
    {ops : List ClientOp} {c : Client} {T1 T2 : List CItem} {j : CItem} {e : ClientEvent}
    (ht : (Client.new g o).trace L ops = .ok (c, T1 ++ j :: T2)) (hj : j.terminal? = some e) :
    ∃ (ended : List ClientEnded) (openSegment : Bytes) (datas : List AuthenticateData),
      clientOutput T2 = ended.flatMap ClientEnded.sent ++ openSegment ∧
      ended.map ClientEnded.event = clientTerminals T2 ∧
      (∀ (n : Nat) en, ended[n]? = some en →
        ∃ x, (clientEnqueued (T1 ++ j :: T2))[(clientTerminals T1).length + 1 + n]? = some x ∧ EndedAs L x en) ∧
      (openSegment ≠ [] → ∃ x, (clientEnqueued (T1 ++ j :: T2))[(clientTerminals T1).length + 1 + ended.length]? = some x ∧
        OpenAs L x openSegment datas) := by
  obtain ⟨-, -, h3, h4, h5⟩ := ClientView.of_fields (T1 ++ j :: T2)
  obtain ⟨-, -, -, k4, k5⟩ := ClientView.of_fields (T1 ++ [j])
  rw [ClientView.sent_of_terminal hj, List.append_nil] at k5
  have hs : T1 ++ j :: T2 = T1 ++ [j] ++ T2 := by simp
  obtain ⟨R, hR⟩ : (ClientView.of (T1 ++ [j])).ended <+: (ClientView.of (T1 ++ j :: T2)).ended := by
    simpa only [hs, ClientView.of, List.foldl_append] using ClientView.foldl_ended T2 (ClientView.of (T1 ++ [j]))
  have hl : (ClientView.of (T1 ++ [j])).ended.length = (clientTerminals T1).length + 1 := by
    rw [← List.length_map (f := ClientEnded.event), k4, clientTerminals_append]
    simp [clientTerminals, hj]
  refine ⟨R, (ClientView.of (T1 ++ j :: T2)).sent, (ClientView.of (T1 ++ j :: T2)).datas, ?_, ?_, ?_, ?_⟩
  · rw [← hR, hs, clientOutput_append, ← k5, List.flatMap_append, List.append_assoc] at h5
    rw [← List.append_cancel_left h5, hs]
  · rw [← hR, hs, clientTerminals_append, ← k4, List.map_append] at h4
    exact List.append_cancel_left h4
  · intro n en hn
    have := Client.trace_ended hL ht ((clientTerminals T1).length + 1 + n) en (by
      rw [← hR, ← hl, List.getElem?_append_right (Nat.le_add_right ..), Nat.add_sub_cancel_left]
      exact hn)
    rwa [h3] at this
  · intro hs
    obtain ⟨x, e1, -, e2⟩ := (Client.trace_inv hL ht).1.open hs
    rw [← hR, List.length_append, hl, h3] at e1
    exact ⟨x, e1, e2⟩

/-- After `B` is rejected, only bytes of `C` are output. -/
example : ∃ c, (Client.new ClientSample.g .default).trace Toy.lib ClientSample.literalOps =
      .ok (c, ClientSample.literalTrace.take 17 ++
        .received (ClientSample.ln "bB no") (.commandRejected ClientSample.hB ClientSample.cmdB
          (.tagged (ClientSample.str "B") ⟨.bad, none, ClientSample.str "no"⟩)) :: ClientSample.literalTrace.drop 18) ∧
    clientOutput (ClientSample.literalTrace.drop 18) = ClientSample.ln "C Cz" := by
  obtain ⟨c, h⟩ := ClientSample.literal_run
  exact ⟨c, h, by decide +kernel⟩

/-- Two statuses arrive while `B` waits for its literal: a tagged NO (only reported) and a tagged BAD
(rejects `B`).  Then `C` is started. -/
example : ∃ c, (Client.new ClientSample.g .default).trace Toy.lib ClientSample.literalOps =
      .ok (c, ClientSample.literalTrace.take 17 ++
        .received (ClientSample.ln "bB no") (.commandRejected ClientSample.hB ClientSample.cmdB
          (.tagged (ClientSample.str "B") ⟨.bad, none, ClientSample.str "no"⟩)) ::
        ([] ++ .output (ClientSample.ln "C Cz") :: ClientSample.literalTrace.drop 19)) ∧
    ClientSample.literalTrace[16]? = some (.received (ClientSample.ln "nB wrong")
      (.statusReceived (.tagged (ClientSample.str "B") ⟨.no, none, ClientSample.str "wrong"⟩))) := by
  obtain ⟨c, h⟩ := ClientSample.literal_run
  exact ⟨c, h, by decide +kernel⟩

end ImapFlow

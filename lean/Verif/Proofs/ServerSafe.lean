import Verif.Proofs.ServerInv

/-!
# The server never panics
-/

namespace ImapFlow

open ReceiveState

/-- Both texts are usable. -/
def ServerOptions.Usable (L : Lib) (o : ServerOptions) : Prop :=
  (∃ text, o.literalAcceptCcr = .basic none text ∧ L.ccrBasicValid false text = true) ∧
  ∃ text, o.literalRejectCcr = .basic none text ∧ L.ccrBasicValid false text = true

theorem Lib.ccrFromText_some {L : Lib} {text : Text} {c : ContinuationRequest}
    (h : L.ccrBasicFromText none text = some c) : c = .basic none text ∧ L.ccrBasicValid false text = true := by
  unfold Lib.ccrBasicFromText at h
  split at h
  · cases h; exact ⟨rfl, by assumption⟩
  · cases h

theorem Lib.ccrFromStr_some {L : Lib} {text : Text} {c : ContinuationRequest}
    (h : L.ccrBasicFromStr none text = some c) : c = .basic none text ∧ L.ccrBasicValid false text = true := by
  unfold Lib.ccrBasicFromStr at h
  split at h
  · rename_i hc
    cases h
    simp only [Option.isSome_none, Bool.and_eq_true] at hc
    exact ⟨rfl, hc.2⟩
  · cases h

theorem ServerOptions.Built.usable {L : Lib} {o : ServerOptions} (h : Built L o) : o.Usable L := by
  induction h with
  | default h =>
    unfold ServerOptions.default at h
    split at h
    · cases h
    · rename_i a ha
      split at h
      · cases h
      · rename_i r hr
        cases h
        obtain ⟨e1, h1⟩ := L.ccrFromText_some ha
        cases hr
        exact ⟨⟨_, e1, h1⟩, _, e1, h1⟩
  | crlfRelaxed b _ ih => exact ih
  | maxLiteralSize n _ ih => exact ih
  | maxCommandSize n _ ih => exact ih
  | accept _ h ih =>
    unfold setLiteralAcceptText at h
    split at h
    · split at h
      · cases h
      · rename_i c hc
        simp only [Except.ok.injEq, Prod.mk.injEq] at h
        obtain ⟨rfl, -⟩ := h
        obtain ⟨rfl, h1⟩ := L.ccrFromStr_some hc
        exact ⟨⟨_, rfl, h1⟩, ih.2⟩
    · simp only [Except.ok.injEq, Prod.mk.injEq] at h
      obtain ⟨rfl, -⟩ := h
      exact ih
  | reject _ h ih =>
    unfold setLiteralRejectText at h
    split at h
    · split at h
      · cases h
      · rename_i c hc
        simp only [Except.ok.injEq, Prod.mk.injEq] at h
        obtain ⟨rfl, -⟩ := h
        obtain ⟨rfl, h1⟩ := L.ccrFromStr_some hc
        exact ⟨ih.1, _, rfl, h1⟩
    · simp only [Except.ok.injEq, Prod.mk.injEq] at h
      obtain ⟨rfl, -⟩ := h
      exact ih

namespace Server

theorem progressReceive_safe {L : Lib} (hL : L.Lawful) {o : ServerOptions} (hO : o.Usable L)
    {v : ServerView} {s : Server} (h : s.Inv L o v) : ∃ x, progressReceive L s = .ok x := by
  obtain ⟨so, g, snd, rcv⟩ := s
  obtain ⟨ho, -, hrx⟩ := h
  simp only at ho hrx
  subst ho
  cases rcv with
  | dummy => exact hrx.elim
  | idleAccept st => exact ⟨_, rfl⟩
  | authenticateData st =>
    have hout := receiveServerLine_outcome (F := authenticateFraming L so) (fun _ => rfl) hrx.2.1.1
    have e1 : (authenticateFraming L so).dec = L.decodeAuthenticateData := rfl
    rw [e1] at hout
    unfold progressReceive
    simp only
    generalize receiveServerLine L.decodeAuthenticateData st = res at hout
    cases hout with
    | panic a b c d =>
      exact (d (decode_all (lit := SimpleDecodeError.literal) hL.authenticateData
        (fun e k h => by cases h) a b c)).elim
    | _ => exact ⟨_, rfl⟩
  | idleDone st =>
    have hout := receiveServerLine_outcome (F := idleFraming L so) (fun _ => rfl) hrx.2.1.1
    have e1 : (idleFraming L so).dec = L.decodeIdleDone := rfl
    rw [e1] at hout
    unfold progressReceive
    simp only
    generalize receiveServerLine L.decodeIdleDone st = res at hout
    cases hout with
    | panic a b c d =>
      exact (d (decode_all (lit := SimpleDecodeError.literal) hL.idleDone
        (fun e k h => by cases h) a b c)).elim
    | _ => exact ⟨_, rfl⟩
  | command st =>
    have hout := next_outcome hrx.2.1.1
    have e1 : (commandFraming L so).dec = L.decodeCommand := rfl
    rw [e1] at hout
    unfold progressReceive
    simp only
    generalize st.next L.decodeCommand = out at hout
    cases hout with
    | @assertFailed n p l rem m a b c d =>
      refine (d (decode_all (lit := CommandDecodeError.literal) hL.command
        (fun e k h => ?_) a.announced a.line c)).elim
      obtain ⟨tag, mode, rfl, -⟩ := CommandDecodeError.acceptable_some h
      rfl
    | @message n p l m ha hc hd =>
      simp only [commandDecoded]
      rw [finishMessage_eq (s := st.atLine n) ha.le]
      obtain ⟨tag, body⟩ := m
      cases body <;> exact ⟨_, rfl⟩
    | @badLine n p l ha hc =>
      simp only
      rw [discardCommand_eq (st := st.atLine n) ha.le]
      exact ⟨_, rfl⟩
    | @tooLong st1 hm h1 h2 h3 h4 hu hno =>
      simp only
      have hle := st.maxReadableBytes_le
      rw [discardCommand_eq (by rw [h3, h4]; exact hle)]
      exact ⟨_, rfl⟩
    | @needMore st1 => exact ⟨_, rfl⟩
    | @failure n p l e ha hc hd =>
      cases e with
      | incomplete => simp only; rw [discardCommand_eq (st := st.atLine n) ha.le]; exact ⟨_, rfl⟩
      | failed => simp only; rw [discardCommand_eq (st := st.atLine n) ha.le]; exact ⟨_, rfl⟩
      | literalFound tag k mode =>
        obtain ⟨⟨at', hat, hav⟩, rt, hrt, -⟩ := hO
        have h1 : so.literalAcceptText = .ok at' := by simp [ServerOptions.literalAcceptText, hat]
        have h2 : so.literalRejectText = .ok rt := by simp [ServerOptions.literalRejectText, hrt]
        have h3 : L.ccrBasicFromText none at' = some (.basic none at') := by
          simp [Lib.ccrBasicFromText, hav]
        simp only [literalFound, h1, h2, h3]
        rw [discardMessage_eq (s := st.atLine n) ha.le]
        cases mode <;> simp only <;> split <;> exact ⟨_, rfl⟩

theorem progressSend_clear {L : Lib} {o : ServerOptions} {v : ServerView} {s s1 : Server} (h : s.Inv L o v)
    (hs : progressSend L s = (s1, .ok none)) : ∃ v' : ServerView, s1.Inv L o v' ∧ v'.Clear := by
  rcases progressSend_cases hs with ⟨m, q, hc, hq, hr, he⟩ | ⟨hc, hq, hr, he⟩ | ⟨m, hc, hr, he⟩
  · cases hr
  · subst he
    exact ⟨v, h, by have := h.2.1.clear (s := s1) ⟨hc, .inr hq⟩; exact this⟩
  · have hst : Step L s v.quiet .quiet s1 := .quiet hs (by rw [hc]; rfl)
    have h2 := step_inv h hst
    refine ⟨_, h2.2, h2.2.2.1.clear (s := s1) ⟨by rw [he], .inl rfl⟩⟩

theorem nextTrace_safe {L : Lib} (hL : L.Lawful) {o : ServerOptions} (hO : o.Usable L)
    {v : ServerView} {s : Server} (h : s.Inv L o v) : ∃ x, nextTrace L s = .ok x := by
  generalize hn : s.unread = n
  induction n using Nat.strongRecOn generalizing s v with
  | _ n ih =>
    rw [nextTrace_eq]
    cases hs : progressSend L s with
    | mk s1 r1 =>
      rcases r1 with (⟨_ | b⟩ | e) | _ | e
      · exact ⟨_, rfl⟩
      · exact ⟨_, rfl⟩
      · exact ⟨_, rfl⟩
      · simp only
        obtain ⟨v', h1, h2⟩ := progressSend_clear h hs
        obtain ⟨⟨s2, r2⟩, hr⟩ := progressReceive_safe hL hO h1
        rw [hr]
        rcases r2 with (⟨_ | b⟩ | e) | _ | e
        · exact ⟨_, rfl⟩
        · exact ⟨_, rfl⟩
        · exact ⟨_, rfl⟩
        · simp only
          have h4 := (progressReceive_inv h1 h2 hr).2
          have e1 := progressSend_receiveState hs
          have e2 := progressReceive_unread hr
          have e3 : s1.unread = s.unread := by simp [Server.unread, e1]
          obtain ⟨⟨s3, T⟩, hx⟩ := ih _ (by omega) h4 rfl
          rw [hx]; exact ⟨_, rfl⟩
        · exact ⟨_, rfl⟩
      · exact ⟨_, rfl⟩

theorem callTrace_safe {L : Lib} (hL : L.Lawful) {o : ServerOptions} (hO : o.Usable L)
    {v : ServerView} {s : Server} (h : s.Inv L o v) (op : ServerOp) : ∃ x, callTrace L s op = .ok x := by
  cases op with
  | next => exact nextTrace_safe hL hO h
  | enqueueData d => exact ⟨_, rfl⟩
  | enqueueStatus d => exact ⟨_, rfl⟩
  | enqueueContinuationRequest d => exact ⟨_, rfl⟩
  | authenticateContinue d => exact ⟨_, rfl⟩
  | _ =>
    obtain ⟨so, g, snd, rcv⟩ := s
    cases rcv with
    | dummy => exact h.2.2.elim
    | _ => exact ⟨_, rfl⟩

theorem trace_safe {L : Lib} (hL : L.Lawful) {o : ServerOptions} (hO : o.Usable L)
    {v : ServerView} {s : Server} (h : s.Inv L o v) (ops : List ServerOp) : ∃ x, trace L s ops = .ok x := by
  induction ops generalizing s v with
  | nil => exact ⟨_, rfl⟩
  | cons op ops ih =>
    unfold trace
    obtain ⟨⟨s1, T⟩, hx⟩ := callTrace_safe hL hO h op
    rw [hx]
    obtain ⟨⟨s2, U⟩, hy⟩ := ih (steps_inv h (callTrace_steps hx _))
    simp [hy]

end Server

end ImapFlow

import Verif.Proofs.ClientInv

/-!
# The client never panics
-/

namespace ImapFlow

open ReceiveState

theorem SingleLine.ok {fs : List Fragment} (h : SingleLine fs) : ∃ b, singleLine fs = .ok b := by
  obtain ⟨d, rfl, -⟩ := h
  exact ⟨d, rfl⟩

theorem sendNext_safe {L : Lib} (hL : L.Lawful) (s : ClientSendState) : ∃ x, s.next L = .ok x := by
  unfold ClientSendState.next
  split
  · exact ⟨_, rfl⟩
  · split
    · exact ⟨_, rfl⟩
    · rename_i q rest _
      obtain ⟨h, ⟨tag, body⟩⟩ := q
      cases body with
      | authenticate m ir =>
        obtain ⟨b, hb⟩ := (hL.encodeAuthenticate tag m ir).ok
        simp [ClientQueued.start, hb]
      | idle =>
        obtain ⟨b, hb⟩ := (hL.encodeIdle tag).ok
        simp [ClientQueued.start, hb]
      | other o => simp [ClientQueued.start]

theorem setAuth_safe {L : Lib} (hL : L.Lawful) (s : ClientSendState) (d : AuthenticateData) :
    ∃ x, s.setAuthenticateData L d = .ok x := by
  unfold ClientSendState.setAuthenticateData
  obtain ⟨b, hb⟩ := (hL.encodeData d).ok
  split
  · split
    · rw [hb]; exact ⟨_, rfl⟩
    · exact ⟨_, rfl⟩
  · exact ⟨_, rfl⟩

theorem setDone_safe {L : Lib} (hL : L.Lawful) (s : ClientSendState) :
    ∃ x, s.setIdleDone L = .ok x := by
  unfold ClientSendState.setIdleDone
  obtain ⟨b, hb⟩ := hL.encodeDone.ok
  split
  · split
    · rw [hb]; exact ⟨_, rfl⟩
    · exact ⟨_, rfl⟩
  · exact ⟨_, rfl⟩

namespace Client

theorem progressSend_safe {L : Lib} (hL : L.Lawful) (c : Client) : ∃ x, progressSend L c = .ok x := by
  unfold progressSend
  split
  · exact ⟨_, rfl⟩
  · obtain ⟨⟨s, r⟩, h⟩ := sendNext_safe hL c.sendState
    rw [h]
    rcases r with (io | e) | _ | e
    · exact ⟨_, rfl⟩
    · exact e.elim
    · exact ⟨_, rfl⟩
    · exact ⟨_, rfl⟩

theorem progressReceive_safe {L : Lib} (hL : L.Lawful) {relaxed : Bool} {v : ClientView} {c : Client}
    (h : c.Inv L relaxed v) : ∃ x, progressReceive L c = .ok x := by
  obtain ⟨gen, snd, rcv⟩ := c
  obtain ⟨-, h2⟩ := h
  cases rcv with
  | dummy => exact h2.elim
  | greeting st =>
    obtain ⟨-, hrd, hmax, -⟩ := h2
    have ho := receiveGreeting_outcome hrd hmax ClientError.malformedMessage
    unfold progressReceive
    simp only
    generalize receiveGreeting L st = res at ho
    cases ho with
    | panic a b c d =>
      exact (d (decode_all (lit := SimpleDecodeError.literal) hL.greeting
        (fun e k h => by cases h) a b c)).elim
    | _ => exact ⟨_, rfl⟩
  | response st =>
    obtain ⟨-, hrd, hmax, -⟩ := h2
    have ho := receiveResponse_outcome hrd hmax ClientError.malformedMessage
    unfold progressReceive
    simp only
    generalize receiveResponse L st = res at ho
    cases ho with
    | panic a b c d =>
      exact (d (decode_all (lit := ResponseDecodeError.literal) hL.response (fun e k h => h) a b c)).elim
    | _ => exact ⟨_, rfl⟩

theorem nextTrace_safe {L : Lib} (hL : L.Lawful) {relaxed : Bool} {v : ClientView} {c : Client}
    (h : c.Inv L relaxed v) : ∃ x, nextTrace L c = .ok x := by
  generalize hn : c.unread = n
  induction n using Nat.strongRecOn generalizing c v with
  | _ n ih =>
    rw [nextTrace_eq]
    obtain ⟨⟨c1, r1⟩, hs⟩ := progressSend_safe hL c
    rw [hs]
    rcases r1 with (⟨_ | b⟩ | e) | _ | e
    · exact ⟨_, rfl⟩
    · exact ⟨_, rfl⟩
    · exact ⟨_, rfl⟩
    · simp only
      rcases progressSend_inv hL h hs with ⟨-, h1, h2⟩ | ⟨-, e, h1, -⟩ | ⟨-, b, h1, -⟩
      · obtain ⟨⟨c2, r2⟩, hr⟩ := progressReceive_safe hL h1
        rw [hr]
        rcases r2 with (⟨_ | b⟩ | e) | _ | e
        · exact ⟨_, rfl⟩
        · exact ⟨_, rfl⟩
        · exact ⟨_, rfl⟩
        · simp only
          rcases progressReceive_inv h1 h2 hr with ⟨h3, -⟩ | ⟨e, h3, -⟩ | ⟨e, h3, -⟩ | ⟨h3, -, h4⟩
          · cases h3
          · cases h3
          · cases h3
          · have e1 := progressSend_unread hs
            have e2 := progressReceive_unread hr
            have e3 : c1.unread = c.unread := by simp [Client.unread, e1]
            obtain ⟨⟨c3, T⟩, hx⟩ := ih _ (by omega) h4 rfl
            rw [hx]; exact ⟨_, rfl⟩
        · exact ⟨_, rfl⟩
      · cases h1
      · cases h1
    · exact ⟨_, rfl⟩

theorem callTrace_safe {L : Lib} (hL : L.Lawful) {relaxed : Bool} {v : ClientView} {c : Client}
    (h : c.Inv L relaxed v) (op : ClientOp) : ∃ x, callTrace L c op = .ok x := by
  cases op with
  | enqueueCommand cmd => exact ⟨_, rfl⟩
  | enqueueInput b =>
    obtain ⟨gen, snd, rcv⟩ := c
    cases rcv with
    | dummy => exact h.2.elim
    | greeting st => exact ⟨_, rfl⟩
    | response st => exact ⟨_, rfl⟩
  | next => exact nextTrace_safe hL h
  | setAuthenticateData d =>
    obtain ⟨⟨s, r⟩, hx⟩ := setAuth_safe hL c.sendState d
    simp [callTrace, setAuthenticateData, hx, Except.map]
  | setIdleDone =>
    obtain ⟨⟨s, r⟩, hx⟩ := setDone_safe hL c.sendState
    simp [callTrace, setIdleDone, hx, Except.map]

theorem trace_safe {L : Lib} (hL : L.Lawful) {relaxed : Bool} {v : ClientView} {c : Client}
    (h : c.Inv L relaxed v) (ops : List ClientOp) : ∃ x, trace L c ops = .ok x := by
  induction ops generalizing c v with
  | nil => exact ⟨_, rfl⟩
  | cons op ops ih =>
    unfold trace
    obtain ⟨⟨c1, T⟩, hx⟩ := callTrace_safe hL h op
    rw [hx]
    obtain ⟨⟨c2, U⟩, hy⟩ := ih (steps_inv hL h (callTrace_steps hx))
    simp [hy]

end Client

end ImapFlow

import Verif.Proofs.Rest

/-!
# Input that the server still has to deal with
-/

namespace ImapFlow

variable {L : Lib}

/-- Bytes in the buffer of the server. -/
def ServerReceiveState.held : ServerReceiveState → Nat
  | .command s | .authenticateData s | .idleAccept s | .idleDone s => s.readBuffer.length
  | .dummy => 0

/-- How often the user of the server can change what is expected next without further input. -/
def ServerReceiveState.rank : ServerReceiveState → Nat
  | .command _ | .dummy => 0
  | .authenticateData _ | .idleDone _ => 1
  | .idleAccept _ => 2

def Server.backlog (s : Server) : Nat := 3 * s.receiveState.held + s.receiveState.rank

theorem ReceiveState.Progress.finish_held {ε μ : Type} {s s1 s2 : ReceiveState} {r : Except (Interrupt (ReceiveError ε)) μ}
    (h : Progress s s1 r) (h1 : r ≠ .error (.io .needMoreInput))
    (h2 : s2 = { s1 with readBuffer := s1.readBuffer.drop s1.seenBytes, seenBytes := 0, nextFragment := .startNewLine }) :
    s2.readBuffer.length < s.readBuffer.length := by
  obtain ⟨a1, -, a3, a4, a5, -⟩ := h
  have := a5 h1
  rw [a1] at a3
  rw [h2]
  simp only [List.length_drop, a1]
  omega

theorem receiveServerLine_held {μ : Type} {dec : Decoder SimpleDecodeError μ} {s s1 : ReceiveState}
    {r : Except (Interrupt ServerError) μ} (hmax : s.maxMessageSize ≠ some 0) (h : receiveServerLine dec s = .ok (s1, r)) :
    s1.readBuffer.length < s.readBuffer.length ∨ (s1.readBuffer.length = s.readBuffer.length ∧ ∀ x, r ≠ .ok x) := by
  have discard : ∀ {s2 : ReceiveState} {e : ReceiveError SimpleDecodeError} {mk : Bytes → ServerError},
      s.next dec = .ok (s2, .error (.error e)) → discardWith s2 mk = .ok (s1, r) →
      s1.readBuffer.length < s.readBuffer.length := by
    intro s2 e mk hn hd
    unfold discardWith at hd
    split at hd
    · cases hd
    · rename_i s3 b hb
      simp only [Except.ok.injEq, Prod.mk.injEq] at hd
      obtain ⟨rfl, -⟩ := hd
      exact (ReceiveState.next_progress hmax hn).finish_held (by simp) (ReceiveState.discardMessage_ok hb)
  unfold receiveServerLine at h
  split at h
  · cases h
  · rename_i s2 m hn
    unfold finishWith at h
    split at h
    · cases h
    · rename_i s3 hf
      simp only [Except.ok.injEq, Prod.mk.injEq] at h
      obtain ⟨rfl, -⟩ := h
      exact .inl ((ReceiveState.next_progress hmax hn).finish_held (by simp) (ReceiveState.finishMessage_ok hf))
  · rename_i s2 io hn
    simp only [Except.ok.injEq, Prod.mk.injEq] at h
    obtain ⟨rfl, rfl⟩ := h
    exact .inr ⟨by rw [(ReceiveState.next_progress hmax hn).1], fun _ => by simp⟩
  all_goals
    rename_i hn
    exact .inl (discard hn h)

theorem Server.progressReceive_backlog {s s1 : Server} {r : Except (Interrupt ServerError) (Option ServerEvent)}
    (hmax : s.Limited) (h : s.progressReceive L = .ok (s1, r)) :
    s1.backlog < s.backlog ∨ (s1.backlog = s.backlog ∧ ∀ e, r ≠ .ok (some e)) := by
  obtain ⟨o, g, snd, rcv⟩ := s
  unfold progressReceive at h
  cases rcv with
  | command st =>
    have hmax : st.maxMessageSize ≠ some 0 := hmax
    have discard : ∀ {st1 : ReceiveState} {e : ReceiveError CommandDecodeError} {mk : Bytes → ServerError},
        st.next L.decodeCommand = .ok (st1, .error (.error e)) →
        discardCommand { options := o, handleGenerator := g, sendState := snd, receiveState := .command st } st1 mk = .ok (s1, r) →
        s1.backlog < 3 * st.readBuffer.length + 0 := by
      intro st1 e mk hn hd
      unfold discardCommand at hd
      split at hd
      · cases hd
      · rename_i st2 b hb
        simp only [Except.ok.injEq, Prod.mk.injEq] at hd
        obtain ⟨rfl, -⟩ := hd
        have := (ReceiveState.next_progress hmax hn).finish_held (by simp) (ReceiveState.discardMessage_ok hb)
        simp only [Server.backlog, ServerReceiveState.held, ServerReceiveState.rank]
        omega
    simp only at h
    split at h
    · cases h
    · rename_i st1 cmd hn
      left
      unfold commandDecoded at h
      split at h
      · cases h
      · rename_i st2 hf
        have := (ReceiveState.next_progress hmax hn).finish_held (by simp) (ReceiveState.finishMessage_ok hf)
        split at h
        all_goals
          simp only [ServerReceiveState.changeState, Except.ok.injEq, Prod.mk.injEq] at h
          obtain ⟨rfl, -⟩ := h
          simp only [Server.backlog, ServerReceiveState.held, ServerReceiveState.rank, ReceiveState.changeCodec,
            ReceiveState.withReadBuffer]
          omega
    · rename_i st1 io hn
      simp only [Except.ok.injEq, Prod.mk.injEq] at h
      obtain ⟨rfl, rfl⟩ := h
      right
      simp only [Server.backlog, ServerReceiveState.held, ServerReceiveState.rank, (ReceiveState.next_progress hmax hn).1]
      simp
    · rename_i st1 tag len mode hn
      have hp := ReceiveState.next_progress hmax hn
      unfold literalFound at h
      split at h
      · have fin : ∀ {st2 : ReceiveState} {b : Bytes}, st1.discardMessage = .ok (st2, b) →
            3 * st2.readBuffer.length + 0 < 3 * st.readBuffer.length + 0 := fun hb => by
          have := hp.finish_held (by simp) (ReceiveState.discardMessage_ok hb)
          omega
        split at h
        · split at h
          · cases h
          · simp only at h
            split at h
            · cases h
            · rename_i hb
              simp only [Except.ok.injEq, Prod.mk.injEq] at h
              obtain ⟨rfl, rfl⟩ := h
              exact .inl (fin hb)
        · split at h
          · cases h
          · rename_i hb
            simp only [Except.ok.injEq, Prod.mk.injEq] at h
            obtain ⟨rfl, rfl⟩ := h
            exact .inl (fin hb)
      · simp only at h
        have same : (3 * (st1.startLiteral len).readBuffer.length + 0) = 3 * st.readBuffer.length + 0 := by
          show 3 * st1.readBuffer.length + 0 = _
          rw [hp.1]
        split at h
        · split at h
          · cases h
          · split at h
            · cases h
            · simp only [Except.ok.injEq, Prod.mk.injEq] at h
              obtain ⟨rfl, rfl⟩ := h
              exact .inr ⟨same, fun _ => by simp⟩
        · simp only [Except.ok.injEq, Prod.mk.injEq] at h
          obtain ⟨rfl, rfl⟩ := h
          exact .inr ⟨same, fun _ => by simp⟩
    all_goals
      rename_i hn
      exact .inl (discard hn h)
  | authenticateData st =>
    simp only at h
    split at h
    · cases h
    · rename_i s1 i hr
      simp only [Except.ok.injEq, Prod.mk.injEq] at h
      obtain ⟨rfl, rfl⟩ := h
      simp only [Server.backlog, ServerReceiveState.held, ServerReceiveState.rank]
      rcases receiveServerLine_held hmax hr with hl | ⟨hl, -⟩
      · left; omega
      · exact .inr ⟨by omega, fun _ => by simp⟩
    · rename_i s1 d hr
      simp only [Except.ok.injEq, Prod.mk.injEq] at h
      obtain ⟨rfl, rfl⟩ := h
      simp only [Server.backlog, ServerReceiveState.held, ServerReceiveState.rank]
      rcases receiveServerLine_held hmax hr with hl | ⟨-, hl⟩
      · left; omega
      · exact absurd rfl (hl _)
  | idleAccept st =>
    simp only [Except.ok.injEq, Prod.mk.injEq] at h
    obtain ⟨rfl, rfl⟩ := h
    exact .inr ⟨rfl, fun _ => by simp⟩
  | idleDone st =>
    simp only at h
    split at h
    · cases h
    · rename_i s1 i hr
      simp only [Except.ok.injEq, Prod.mk.injEq] at h
      obtain ⟨rfl, rfl⟩ := h
      simp only [Server.backlog, ServerReceiveState.held, ServerReceiveState.rank]
      rcases receiveServerLine_held hmax hr with hl | ⟨hl, -⟩
      · left; omega
      · exact .inr ⟨by omega, fun _ => by simp⟩
    · rename_i s1 hr
      simp only [ServerReceiveState.changeState, Except.ok.injEq, Prod.mk.injEq] at h
      obtain ⟨rfl, rfl⟩ := h
      simp only [Server.backlog, ServerReceiveState.held, ServerReceiveState.rank, ReceiveState.changeCodec,
        ReceiveState.withReadBuffer]
      rcases receiveServerLine_held hmax hr with hl | ⟨-, hl⟩
      · left; omega
      · exact absurd rfl (hl _)
  | dummy => cases h

/-- What the server receives, it has no longer to deal with. -/
theorem Server.nextTrace_backlog {s s1 : Server} {T : List SItem} (hmax : s.Limited)
    (h : s.nextTrace L = .ok (s1, T)) :
    s1.backlog < s.backlog ∨ (s1.backlog = s.backlog ∧ ∀ w e, .received w e ∉ T) := by
  generalize hn : s.unread = n
  induction n using Nat.strongRecOn generalizing s T with
  | _ n ih =>
    rw [nextTrace_eq] at h
    cases hs : progressSend L s with
    | mk s2 r =>
      have h1 := Server.progressSend_receiveState hs
      have hu : s2.Limited := by simp only [Server.Limited, h1]; exact hmax
      have hw : s2.backlog = s.backlog := by simp only [Server.backlog, h1]
      obtain ⟨-, -, -, w4⟩ := progressSend_weight hs
      have quiet : ∀ w e, SItem.received w e ∉ quietItems s := by
        intro w e hm
        unfold quietItems at hm
        split at hm <;> simp at hm
      rcases r with (⟨_ | b⟩ | e) | _ | ev
      · exact absurd rfl w4
      · simp only [hs, Except.ok.injEq, Prod.mk.injEq] at h
        obtain ⟨rfl, rfl⟩ := h
        exact .inr ⟨hw, by simp⟩
      · simp only [hs, Except.ok.injEq, Prod.mk.injEq] at h
        obtain ⟨rfl, rfl⟩ := h
        exact .inr ⟨hw, by simp⟩
      · simp only [hs] at h
        cases hr : progressReceive L s2 with
        | error p => simp [hr] at h
        | ok x =>
          obtain ⟨s3, r⟩ := x
          have r3 := progressReceive_backlog (L := L) hu hr
          have r1 := (progressReceive_weight (L := L) hu hr).1
          rw [hw] at r3
          rcases r with (⟨_ | b⟩ | e) | _ | ev
          · simp only [hr, Except.ok.injEq, Prod.mk.injEq] at h
            obtain ⟨rfl, rfl⟩ := h
            exact r3.imp id fun r3 => ⟨r3.1, by simpa using quiet⟩
          · simp only [hr, Except.ok.injEq, Prod.mk.injEq] at h
            obtain ⟨rfl, rfl⟩ := h
            exact r3.imp id fun r3 => ⟨r3.1, by simpa using quiet⟩
          · simp only [hr, Except.ok.injEq, Prod.mk.injEq] at h
            obtain ⟨rfl, rfl⟩ := h
            exact r3.imp id fun r3 => ⟨r3.1, by simpa using quiet⟩
          · have h2 := Server.progressReceive_unread hr
            have h3 : s2.unread = s.unread := by simp [Server.unread, h1]
            simp only [hr] at h
            cases ht : nextTrace L s3 with
            | error p => simp [ht] at h
            | ok y =>
              obtain ⟨s4, items⟩ := y
              simp only [ht, Except.ok.injEq, Prod.mk.injEq] at h
              obtain ⟨rfl, rfl⟩ := h
              have i2 := ih _ (by omega) r1 ht rfl
              rcases i2 with i2 | ⟨i2, i3⟩
              · left; omega
              · rcases r3 with r3 | ⟨r3, -⟩
                · left; omega
                · refine .inr ⟨by omega, ?_⟩
                  intro w e hm
                  simp only [List.mem_append, List.mem_cons] at hm
                  rcases hm with hm | hm | hm
                  · exact quiet w e hm
                  · cases hm
                  · exact i3 w e hm
          · rcases r3 with r3 | ⟨-, r3⟩
            · simp only [hr, Except.ok.injEq, Prod.mk.injEq] at h
              obtain ⟨rfl, rfl⟩ := h
              exact .inl r3
            · exact absurd rfl (r3 _)
      · simp only [hs, Except.ok.injEq, Prod.mk.injEq] at h
        obtain ⟨rfl, rfl⟩ := h
        exact .inr ⟨hw, by simp⟩

theorem Server.enqueueInput_backlog {s s1 : Server} {b : Bytes} (h : s.enqueueInput b = .ok s1) :
    s1.backlog = s.backlog + 3 * b.length := by
  unfold enqueueInput at h
  split at h <;> cases h <;> rename_i hs <;>
    simp only [backlog, hs, ServerReceiveState.held, ServerReceiveState.rank, ReceiveState.enqueueInput, List.length_append] <;>
    omega

/-- A call of the user does not add to it. -/
theorem Server.callTrace_backlog {s s1 : Server} {op : ServerOp} {T : List SItem} (h1 : op ≠ .next)
    (h2 : ∀ b, op ≠ .enqueueInput b) (h : s.callTrace L op = .ok (s1, T)) : s1.backlog ≤ s.backlog := by
  have enq : ∀ r : Response, (s.enqueueResponse r).1.backlog = s.backlog := fun r => rfl
  cases op with
  | next => exact absurd rfl h1
  | enqueueInput b => exact absurd rfl (h2 b)
  | enqueueData d => cases h; exact Nat.le_of_eq (enq _)
  | enqueueStatus d => cases h; exact Nat.le_of_eq (enq _)
  | enqueueContinuationRequest d => cases h; exact Nat.le_of_eq (enq _)
  | authenticateContinue q =>
    simp only [callTrace, authenticateContinue] at h
    split at h <;> cases h
    · exact Nat.le_of_eq (enq _)
    · exact Nat.le_refl _
  | authenticateFinish st =>
    simp only [callTrace, authenticateFinish] at h
    split at h
    · rename_i rs hrs
      simp only [enqueueStatus, enqueueResponse, hrs, ServerReceiveState.changeState, Except.map, Except.ok.injEq, Prod.mk.injEq] at h
      obtain ⟨rfl, -⟩ := h
      simp only [backlog, hrs, ServerReceiveState.held, ServerReceiveState.rank, ReceiveState.changeCodec,
        ReceiveState.withReadBuffer]
      omega
    · cases h; exact Nat.le_refl _
  | idleAccept q =>
    simp only [callTrace, idleAccept] at h
    split at h
    · rename_i rs hrs
      simp only [enqueueContinuationRequest, enqueueResponse, hrs, ServerReceiveState.changeState, Except.map, Except.ok.injEq, Prod.mk.injEq] at h
      obtain ⟨rfl, -⟩ := h
      simp only [backlog, hrs, ServerReceiveState.held, ServerReceiveState.rank, ReceiveState.changeCodec,
        ReceiveState.withReadBuffer]
      omega
    · cases h; exact Nat.le_refl _
  | idleReject st =>
    simp only [callTrace, idleReject] at h
    split at h
    · rename_i rs hrs
      simp only [enqueueStatus, enqueueResponse, hrs, ServerReceiveState.changeState, Except.map, Except.ok.injEq, Prod.mk.injEq] at h
      obtain ⟨rfl, -⟩ := h
      simp only [backlog, hrs, ServerReceiveState.held, ServerReceiveState.rank, ReceiveState.changeCodec,
        ReceiveState.withReadBuffer]
      omega
    · cases h; exact Nat.le_refl _

/-! ## The system -/

variable {gc gs : HandleGenerator} {oc : ClientOptions} {os : ServerOptions} {gr : Greeting} {n n' : Net} {T U : List NItem}

/-- What the server, and the channel to it, still have to deal with. -/
def Net.backlog (n : Net) : Nat := 3 * n.toServer.length + n.server.backlog

/-- A step at the server that no user asks for. -/
def NetOp.ServerSide : NetOp → Prop
  | .server .next | .deliverToServer _ => True
  | _ => False

theorem Net.Linked.step_backlog (hmax : 0 < os.maxCommandSize) (h : Net.Linked L gc oc gs os gr n T) {op : NetOp}
    (hop : op.ServerSide) (hs : n.step L op = .ok (n', U)) :
    n'.client = n.client ∧
    (n'.backlog < n.backlog ∨ (n'.backlog ≤ n.backlog ∧ ∀ w e, .received w e ∉ serverItems U)) := by
  have hl := h.limited hmax
  cases op with
  | server op =>
    cases op with
    | next =>
      simp only [Net.step, Net.callServer, Server.callTrace] at hs
      cases hc : n.server.nextTrace L with
      | error p => rw [hc] at hs; cases hs
      | ok x =>
        obtain ⟨s, V⟩ := x
        rw [hc] at hs
        simp only [Except.ok.injEq, Prod.mk.injEq] at hs
        obtain ⟨rfl, rfl⟩ := hs
        refine ⟨rfl, ?_⟩
        rw [serverItems_map_server]
        simp only [Net.backlog]
        rcases Server.nextTrace_backlog hl hc with hw | ⟨hw, hx⟩
        · left; omega
        · exact .inr ⟨by omega, hx⟩
    | _ => exact hop.elim
  | deliverToServer k =>
    simp only [Net.step, Net.callServer, Server.callTrace] at hs
    cases hc : n.server.enqueueInput (n.toServer.take k) with
    | error p => rw [hc] at hs; cases hs
    | ok s =>
      rw [hc] at hs
      simp only [Except.map, Except.ok.injEq, Prod.mk.injEq] at hs
      obtain ⟨rfl, rfl⟩ := hs
      refine ⟨rfl, .inr ⟨?_, ?_⟩⟩
      · have := Server.enqueueInput_backlog hc
        simp only [Net.backlog, List.length_drop, List.length_take] at this ⊢
        omega
      · rw [serverItems_map_server]; simp
  | _ => exact hop.elim

/-- Steps at the server do not add to what it has to deal with, and they take what it receives. -/
theorem Net.Linked.run_backlog (hmax : 0 < os.maxCommandSize) (h : Net.Linked L gc oc gs os gr n T) {ops : List NetOp}
    (hop : ∀ op ∈ ops, op.ServerSide) (hr : n.run L ops = .ok (n', U)) :
    n'.client = n.client ∧
    (n'.backlog < n.backlog ∨ (n'.backlog ≤ n.backlog ∧ ∀ w e, .received w e ∉ serverItems U)) := by
  induction ops generalizing n T U with
  | nil => cases hr; exact ⟨rfl, .inr ⟨Nat.le_refl _, by simp [serverItems]⟩⟩
  | cons op ops ih =>
    simp only [Net.run] at hr
    cases h1 : n.step L op with
    | error p => rw [h1] at hr; cases hr
    | ok x =>
      obtain ⟨n1, U1⟩ := x
      rw [h1] at hr
      simp only at hr
      cases h2 : n1.run L ops with
      | error p => rw [h2] at hr; cases hr
      | ok y =>
        obtain ⟨n2, U2⟩ := y
        rw [h2] at hr
        cases hr
        obtain ⟨c1, w1⟩ := h.step_backlog hmax (hop _ (by simp)) h1
        obtain ⟨c2, w2⟩ := ih (h.step h1) (fun op ho => hop op (by simp [ho])) h2
        refine ⟨c2.trans c1, ?_⟩
        rcases w1 with w1 | ⟨w1, v1⟩
        · rcases w2 with w2 | ⟨w2, -⟩ <;> (left; omega)
        · rcases w2 with w2 | ⟨w2, v2⟩
          · left; omega
          · refine .inr ⟨by omega, fun w e hm => ?_⟩
            rw [serverItems_append] at hm
            exact (List.mem_append.1 hm).elim (v1 w e) (v2 w e)

/-- Calls of the user of the server. -/
theorem Net.run_calls {ops : List NetOp}
    (hop : ∀ op ∈ ops, ∃ o : ServerOp, op = .server o ∧ o ≠ .next ∧ ∀ b, o ≠ .enqueueInput b) (hr : n.run L ops = .ok (n', U)) :
    n'.client = n.client ∧ n'.backlog ≤ n.backlog := by
  induction ops generalizing n U with
  | nil => cases hr; exact ⟨rfl, Nat.le_refl _⟩
  | cons op ops ih =>
    simp only [Net.run] at hr
    cases h1 : n.step L op with
    | error p => rw [h1] at hr; cases hr
    | ok x =>
      obtain ⟨n1, U1⟩ := x
      rw [h1] at hr
      simp only at hr
      cases h2 : n1.run L ops with
      | error p => rw [h2] at hr; cases hr
      | ok y =>
        obtain ⟨n2, U2⟩ := y
        rw [h2] at hr
        cases hr
        obtain ⟨o, rfl, o1, o2⟩ := hop _ (List.mem_cons_self ..)
        obtain ⟨c2, w2⟩ := ih (fun op ho => hop op (by simp [ho])) h2
        have hs : n.callServer L o = .ok (n1, U1) := by
          rw [← h1]
          cases o <;> first | rfl | exact absurd rfl (o2 _)
        unfold Net.callServer at hs
        split at hs
        · cases hs
        · rename_i s V hV
          cases hs
          have := Server.callTrace_backlog o1 o2 hV
          refine ⟨c2, ?_⟩
          simp only [Net.backlog] at w2 ⊢
          omega

/-- Steps at the client leave the server alone. -/
theorem Net.run_clientSide {ops : List NetOp}
    (hop : ∀ op ∈ ops, (∃ o : ClientOp, op = .client o) ∨ ∃ k, op = .deliverToClient k) (hr : n.run L ops = .ok (n', U)) :
    n'.server = n.server := by
  induction ops generalizing n U with
  | nil => cases hr; rfl
  | cons op ops ih =>
    simp only [Net.run] at hr
    cases h1 : n.step L op with
    | error p => rw [h1] at hr; cases hr
    | ok x =>
      obtain ⟨n1, U1⟩ := x
      rw [h1] at hr
      simp only at hr
      cases h2 : n1.run L ops with
      | error p => rw [h2] at hr; cases hr
      | ok y =>
        obtain ⟨n2, U2⟩ := y
        rw [h2] at hr
        cases hr
        have c2 := ih (fun op ho => hop op (by simp [ho])) h2
        have call : ∀ {n n' : Net} {o : ClientOp} {V}, n.callClient L o = .ok (n', V) → n'.server = n.server := by
          intro n n' o V hs
          unfold Net.callClient at hs
          split at hs
          · cases hs
          · cases hs; rfl
        rcases hop _ (List.mem_cons_self ..) with ⟨o, rfl⟩ | ⟨k, rfl⟩
        · cases o <;> first | exact c2.trans (call h1) | (cases h1; exact c2)
        · have h1' : ({ n with toClient := n.toClient.drop k } : Net).callClient L (.enqueueInput (n.toClient.take k)) =
              .ok (n1, U1) := h1
          exact c2.trans (call (n := { n with toClient := n.toClient.drop k }) h1')

end ImapFlow

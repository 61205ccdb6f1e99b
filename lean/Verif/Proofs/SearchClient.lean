import Verif.Proofs.Search
import Verif.Proofs.ClientChunk

/-!
# How many bytes the client searches for the end of a line
-/

namespace ImapFlow

/-- `t` bytes were looked at after `G` bytes were received: nothing was looked at twice. -/
def SearchedOnce (G t : Nat) (st : ReceiveState) : Prop :=
  st.readBuffer.length ≤ G ∧ st.reached ≤ st.readBuffer.length ∧ t ≤ G - st.readBuffer.length + st.reached

theorem SearchedOnce.finish {G t : Nat} {st st' : ReceiveState} (hG : st.readBuffer.length ≤ G)
    (ht : t ≤ G - st.readBuffer.length + st.seenBytes) (h : st.finishMessage = .ok st') :
    SearchedOnce G t st' ∧ t ≤ G - st'.readBuffer.length := by
  obtain ⟨h1, rfl⟩ := ReceiveState.finished_eq h
  refine ⟨⟨?_, Nat.zero_le _, ?_⟩, ?_⟩
  · show (st.readBuffer.drop _).length ≤ G; rw [List.length_drop]; omega
  · show t ≤ G - (st.readBuffer.drop _).length + 0; rw [List.length_drop]; omega
  · show t ≤ G - (st.readBuffer.drop _).length; rw [List.length_drop]; omega

/-- One look for a line. -/
theorem SearchedOnce.next {ε μ : Type} {dec : Decoder ε μ} {G t : Nat} {st st1 : ReceiveState}
    {r : Except (Interrupt (ReceiveError ε)) μ} (h : SearchedOnce G t st) (hx : st.next dec = .ok (st1, r)) :
    st1.readBuffer.length ≤ G ∧ st1.seenBytes ≤ st1.readBuffer.length ∧
      (((∃ e, r = .error (.io e)) ∧ SearchedOnce G (t + st.searched) st1) ∨
        (∀ e, r ≠ .error (.io e)) ∧ t + st.searched ≤ G - st1.readBuffer.length + st1.seenBytes) := by
  obtain ⟨hG, hR, ht⟩ := h
  obtain ⟨h1, h2, h3⟩ := ReceiveState.next_searched hx
  unfold SearchedOnce
  rw [h1]
  refine ⟨hG, h2, ?_⟩
  rcases h3 with ⟨h3, h4, h5⟩ | ⟨h3, h4⟩ | ⟨h3, -, -, h4, -⟩
  · exact .inl ⟨h3, hG, h5, by omega⟩
  · exact .inr ⟨(fun e he => by rw [h3] at he; cases he), by omega⟩
  · exact .inr ⟨h3, by omega⟩

theorem receiveGreeting_once {L : Lib} {G t : Nat} {st st' : ReceiveState} {r : Except (Interrupt ClientError) Greeting}
    (h : SearchedOnce G t st) (hr : receiveGreeting L st = .ok (st', r)) :
    SearchedOnce G (t + st.searched) st' ∧ ∀ m, r = .ok m → t + st.searched ≤ G - st'.readBuffer.length := by
  unfold receiveGreeting at hr
  cases hx : st.next L.decodeGreeting with
  | error p => rw [hx] at hr; cases hr
  | ok x =>
    obtain ⟨st1, r1⟩ := x
    rw [hx] at hr
    obtain ⟨h1, h2, h3⟩ := h.next hx
    rcases h3 with ⟨⟨e, rfl⟩, h3⟩ | ⟨h3, h4⟩
    · cases hr
      exact ⟨h3, fun m hm => by cases hm⟩
    · have hend : ∀ {st2}, st1.finishMessage = .ok st2 → _ := fun e => SearchedOnce.finish h1 h4 e
      split at hr
      · cases ‹_ = Except.error _›
      · rename_i heq
        cases heq
        unfold finishWith at hr
        split at hr
        · cases hr
        · rename_i e
          cases hr
          exact ⟨(hend e).1, fun _ _ => (hend e).2⟩
      · rename_i heq; cases heq; exact absurd rfl (h3 _)
      · rename_i heq
        cases heq
        unfold discardWith at hr
        split at hr
        · cases hr
        · rename_i e
          cases hr
          exact ⟨(hend (ReceiveState.discarded_eq e)).1, fun m hm => by cases hm⟩
      · rename_i heq
        cases heq
        unfold discardWith at hr
        split at hr
        · cases hr
        · rename_i e
          cases hr
          exact ⟨(hend (ReceiveState.discarded_eq e)).1, fun m hm => by cases hm⟩
      · cases hr

theorem searchedResponse_eq (L : Lib) (s : ReceiveState) :
    searchedResponse L s = s.searched +
      match s.next L.decodeResponse with
      | .ok (s1, .error (.error (.decodingFailure (.literalFound length)))) => searchedResponse L (s1.startLiteral length)
      | _ => 0 := by
  rw [searchedResponse]
  congr 1
  split <;> rename_i h1
  · rw [h1]
  · split
    · rename_i h3; exact absurd h3 (h1 _ _)
    · rfl

theorem receiveResponse_once {L : Lib} {G t : Nat} {st st' : ReceiveState} {r : Except (Interrupt ClientError) Response}
    (h : SearchedOnce G t st) (hr : receiveResponse L st = .ok (st', r)) :
    SearchedOnce G (t + searchedResponse L st) st' := by
  induction hn : st.unread using Nat.strongRecOn generalizing st t with
  | ind n ih =>
    rw [receiveResponse_eq] at hr
    rw [searchedResponse_eq]
    cases hx : st.next L.decodeResponse with
    | error p => rw [hx] at hr; cases hr
    | ok x =>
      obtain ⟨st1, r1⟩ := x
      rw [hx] at hr
      obtain ⟨h1, h2, h3⟩ := h.next hx
      rcases h3 with ⟨⟨e, rfl⟩, h3⟩ | ⟨h3, h4⟩
      · cases hr
        exact h3
      · have hdis : ∀ {mk : Bytes → ClientError}, discardWith st1 mk = .ok (st', r) →
            SearchedOnce G (t + st.searched) st' := by
          intro mk hd
          unfold discardWith at hd
          split at hd
          · cases hd
          · rename_i e
            cases hd
            exact (SearchedOnce.finish h1 h4 (ReceiveState.discarded_eq e)).1
        rcases r1 with (io | e) | m
        · exact absurd rfl (h3 _)
        · rcases e with e | _ | _
          · cases e with
            | literalFound k =>
              dsimp only at hr ⊢
              have hu : st1.unread < st.unread := ReceiveState.next_unread hx (by simp) (by simp)
              rw [← Nat.add_assoc]
              exact ih _ (by show st1.unread < n; omega)
                (show SearchedOnce G _ (st1.startLiteral k) from ⟨h1, h2, h4⟩) hr rfl
            | incomplete => exact hdis hr
            | failed => exact hdis hr
          · exact hdis hr
          · cases hr
        · dsimp only at hr ⊢
          unfold finishWith at hr
          split at hr
          · cases hr
          · rename_i e
            cases hr
            exact (SearchedOnce.finish h1 h4 e).1

namespace Client

variable {L : Lib}

/-- Nothing was looked at twice. -/
def Once (G t : Nat) (c : Client) : Prop :=
  match c.receiveState with
  | .greeting st | .response st => SearchedOnce G t st
  | .dummy => False

theorem Once.congr {G t : Nat} {c c' : Client} (h : Once G t c) (hc : c'.receiveState = c.receiveState) :
    Once G t c' := by
  unfold Once at h ⊢
  rw [hc]
  exact h

theorem progressReceive_once {G t : Nat} {c c' : Client} {r : Except (Interrupt ClientError) (Option ClientEvent)}
    (h : Once G t c) (hr : progressReceive L c = .ok (c', r)) : Once G (t + c.searchedReceive L) c' := by
  unfold progressReceive at hr
  unfold Once at h
  cases hst : c.receiveState with
  | dummy => rw [hst] at h; exact h.elim
  | greeting st =>
    rw [hst] at hr h
    have e : c.searchedReceive L = st.searched := by simp [searchedReceive, hst]
    rw [e]
    dsimp only at hr h
    cases hx : receiveGreeting L st with
    | error p => rw [hx] at hr; cases hr
    | ok x =>
      obtain ⟨st1, r1⟩ := x
      rw [hx] at hr
      have h1 := receiveGreeting_once h hx
      cases r1 with
      | error i => cases hr; exact h1.1
      | ok m =>
        cases hr
        exact ⟨h1.1.1, Nat.zero_le _, h1.2 _ rfl⟩
  | response st =>
    rw [hst] at hr h
    have e : c.searchedReceive L = searchedResponse L st := by simp [searchedReceive, hst]
    rw [e]
    dsimp only at hr h
    cases hx : receiveResponse L st with
    | error p => rw [hx] at hr; cases hr
    | ok x =>
      obtain ⟨st1, r1⟩ := x
      rw [hx] at hr
      have h1 := receiveResponse_once h hx
      cases r1 with
      | error i => cases hr; exact h1
      | ok m => cases hr; exact h1

theorem searchedNext_eq (L : Lib) (c : Client) :
    c.searchedNext L =
      match progressSend L c with
      | .ok (c1, .ok none) =>
        c1.searchedReceive L +
          match progressReceive L c1 with
          | .ok (c2, .ok none) => c2.searchedNext L
          | _ => 0
      | _ => 0 := by
  rw [searchedNext]
  split <;> rename_i h1
  · rw [h1]
    dsimp only
    split <;> rename_i h2
    · rw [h2]
    · split
      · rename_i h3; exact absurd h3 (h2 _)
      · rfl
  · split
    · rename_i h3; exact absurd h3 (h1 _)
    · rfl

theorem nextTrace_once {G t : Nat} {c c' : Client} {T : List CItem} (h : Once G t c)
    (hr : c.nextTrace L = .ok (c', T)) : Once G (t + c.searchedNext L) c' := by
  induction hn : c.unread using Nat.strongRecOn generalizing c T t with
  | ind n ih =>
    rw [nextTrace_eq] at hr
    rw [searchedNext_eq]
    cases hs : progressSend L c with
    | error p => rw [hs] at hr; cases hr
    | ok x =>
      obtain ⟨c1, r1⟩ := x
      rw [hs] at hr
      have hc1 := progressSend_unread hs
      have h := h.congr hc1
      rcases r1 with ((b | _) | e) | (_ | ev)
      · cases hr; exact h
      · cases hr; exact h
      · cases hr; exact h
      · dsimp only at hr ⊢
        cases hp : progressReceive L c1 with
        | error p => rw [hp] at hr; cases hr
        | ok x =>
          obtain ⟨c2, r2⟩ := x
          rw [hp] at hr
          have h2 := progressReceive_once h hp
          rcases r2 with ((b | _) | e) | (_ | ev)
          · cases hr; exact h2
          · cases hr; exact h2
          · cases hr; exact h2
          · dsimp only at hr ⊢
            have hu : c2.unread < n := by
              have := progressReceive_unread hp
              have h3 : c1.unread = c.unread := by simp [Client.unread, hc1]
              omega
            cases ht : c2.nextTrace L with
            | error p => rw [ht] at hr; cases hr
            | ok y =>
              obtain ⟨c3, U⟩ := y
              rw [ht] at hr
              cases hr
              have := ih _ hu h2 ht rfl
              rwa [← Nat.add_assoc]
          · cases hr; exact h2
      · cases hr; exact h

/-- The bytes given to the client by a call. -/
def _root_.ImapFlow.ClientOp.bytes : ClientOp → Bytes
  | .enqueueInput x => x
  | _ => []

theorem _root_.ImapFlow.SearchedOnce.input {G t : Nat} {st : ReceiveState} (h : SearchedOnce G t st) (x : Bytes) :
    SearchedOnce (G + x.length) t (st.enqueueInput x) := by
  obtain ⟨hG, hR, ht⟩ := h
  refine ⟨?_, ?_, ?_⟩
  · show (st.readBuffer ++ x).length ≤ _; rw [List.length_append]; omega
  · show st.reached ≤ (st.readBuffer ++ x).length; rw [List.length_append]; omega
  · show t ≤ G + x.length - (st.readBuffer ++ x).length + st.reached
    rw [List.length_append, Nat.add_sub_add_right]; exact ht

theorem callTrace_once {G t : Nat} {c c' : Client} {op : ClientOp} {T : List CItem} (h : Once G t c)
    (hr : c.callTrace L op = .ok (c', T)) : Once (G + op.bytes.length) (t + c.searchedCall L op) c' := by
  cases op with
  | enqueueCommand d => cases hr; exact h
  | setAuthenticateData d =>
    simp only [callTrace] at hr
    unfold setAuthenticateData at hr
    split at hr
    · cases hr
    · cases hr; exact h
  | setIdleDone =>
    simp only [callTrace] at hr
    unfold setIdleDone at hr
    split at hr
    · cases hr
    · cases hr; exact h
  | enqueueInput x =>
    simp only [callTrace] at hr
    unfold enqueueInput at hr
    unfold Once at h
    cases hst : c.receiveState with
    | dummy => rw [hst] at h; exact h.elim
    | greeting st => rw [hst] at hr h; cases hr; exact h.input x
    | response st => rw [hst] at hr h; cases hr; exact h.input x
  | next => exact nextTrace_once h hr

theorem trace_once {G t : Nat} {ops : List ClientOp} {c c' : Client} {T : List CItem} (h : Once G t c)
    (hr : c.trace L ops = .ok (c', T)) : Once (G + (clientGiven T).length) (t + c.searchedCalls L ops) c' := by
  rw [clientGiven_ops hr]
  induction ops generalizing c T G t with
  | nil => cases hr; exact h
  | cons op ops ih =>
    unfold Client.trace at hr
    cases hcall : c.callTrace L op with
    | error p => rw [hcall] at hr; cases hr
    | ok x =>
      obtain ⟨s1, T1⟩ := x
      rw [hcall] at hr
      dsimp only at hr
      cases ht : s1.trace L ops with
      | error p => rw [ht] at hr; cases hr
      | ok y =>
        obtain ⟨s2, U⟩ := y
        rw [ht] at hr
        cases hr
        have h2 := ih (callTrace_once h hcall) ht
        rw [searchedCalls, hcall, List.flatMap_cons, List.length_append, ← Nat.add_assoc, ← Nat.add_assoc]
        cases op <;> exact h2

theorem searched_le {g : HandleGenerator} {o : ClientOptions} {ops : List ClientOp} {c : Client} {T : List CItem}
    (hr : (Client.new g o).trace L ops = .ok (c, T)) :
    (Client.new g o).searchedCalls L ops ≤ (clientGiven T).length := by
  have h0 : Once 0 0 (Client.new g o) := ⟨Nat.le_refl _, Nat.zero_le _, Nat.zero_le _⟩
  have h := trace_once h0 hr
  rw [Nat.zero_add, Nat.zero_add] at h
  unfold Once at h
  split at h
  · obtain ⟨h1, h2, h3⟩ := h; omega
  · obtain ⟨h1, h2, h3⟩ := h; omega
  · exact h.elim

end Client

end ImapFlow

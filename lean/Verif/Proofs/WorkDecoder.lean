import Verif.Proofs.Work

/-!
# The server depends on the decoders only through the attempts
-/

namespace ImapFlow

variable {ε μ : Type}

/-- The decoder was called. -/
def Decoded : Except (Interrupt (ReceiveError ε)) μ → Prop
  | .ok _ => True
  | .error (.error (.decodingFailure _)) => True
  | _ => False

namespace ReceiveState

/-- The bytes of the current message that were already looked at. -/
def seenPart (s : ReceiveState) : Bytes := s.readBuffer.take s.seenBytes

theorem progressLine_agree {dec dec' : Decoder ε μ} {s s' : ReceiveState} {n : Nat}
    {r : Except (Interrupt (ReceiveError ε)) μ} (h : progressLine dec s n = .ok (s', r))
    (ha : Decoded r → dec' s'.seenPart = dec s'.seenPart) :
    progressLine dec' s n = .ok (s', r) ∧ s'.readBuffer = s.readBuffer := by
  unfold progressLine at h ⊢
  dsimp only at h ⊢
  by_cases h1 : s.seenBytes > s.maxReadableBytes
  · rw [if_pos h1] at h; cases h
  rw [if_neg h1] at h ⊢
  cases hf : findCrlf ((s.readBuffer.take s.maxReadableBytes).drop s.seenBytes) n s.crlfRelaxed with
  | error p => rw [hf] at h; cases h
  | ok x =>
    rw [hf] at h
    cases x with
    | none =>
      refine ⟨h, ?_⟩
      dsimp only at h
      split at h <;> (cases h; rfl)
    | some c =>
      dsimp only at h ⊢
      by_cases h2 : c.expectedCrlfGotLf = true
      · rw [if_pos h2] at h ⊢
        exact ⟨h, by cases h; rfl⟩
      · rw [if_neg h2] at h ⊢
        cases hd : dec (s.readBuffer.take (s.seenBytes + (c.lfPosition + 1))) with
        | error e =>
          rw [hd] at h
          cases h
          have := ha trivial
          unfold seenPart at this
          rw [hd] at this
          rw [this]
          exact ⟨rfl, rfl⟩
        | ok x =>
          obtain ⟨rem, m⟩ := x
          rw [hd] at h
          dsimp only at h
          by_cases h3 : rem.isEmpty = true
          · rw [if_pos h3] at h
            cases h
            have := ha trivial
            unfold seenPart at this
            rw [hd] at this
            rw [this]
            exact ⟨if_pos h3, rfl⟩
          · rw [if_neg h3] at h; cases h

theorem next_agree {dec dec' : Decoder ε μ} {s s' : ReceiveState} {r : Except (Interrupt (ReceiveError ε)) μ}
    (h : s.next dec = .ok (s', r)) (ha : Decoded r → dec' s'.seenPart = dec s'.seenPart) :
    s.next dec' = .ok (s', r) ∧ s'.readBuffer = s.readBuffer := by
  unfold ReceiveState.next at h ⊢
  cases hn : s.nextFragment with
  | line n =>
    rw [hn] at h
    exact progressLine_agree h ha
  | literal k =>
    rw [hn] at h
    dsimp only at h ⊢
    cases hp : progressLiteral ε s k with
    | error p => rw [hp] at h; cases h
    | ok x =>
      obtain ⟨s1, r1⟩ := x
      have hb : s1.readBuffer = s.readBuffer := by
        unfold progressLiteral at hp
        dsimp only at hp
        split at hp
        · cases hp
        · split at hp
          · split at hp <;> (cases hp; rfl)
          · cases hp; rfl
      rw [hp] at h
      cases r1 with
      | error i => cases h; exact ⟨rfl, hb⟩
      | ok u =>
        obtain ⟨h1, h2⟩ := progressLine_agree h ha
        exact ⟨h1, h2.trans hb⟩

theorem finishMessage_some {s s' : ReceiveState} (h : s.finishMessage = .ok s') :
    s.seenBytes ≤ s.readBuffer.length ∧ s'.readBuffer = s.readBuffer.drop s.seenBytes := by
  unfold finishMessage at h
  split at h
  · cases h
  · cases h; exact ⟨by omega, rfl⟩

theorem discardMessage_some {s s' : ReceiveState} {d : Bytes} (h : s.discardMessage = .ok (s', d)) : d = s.seenPart := by
  unfold discardMessage at h
  split at h
  · cases h
  · dsimp only at h
    split at h
    · cases h
    · cases h; rfl

end ReceiveState

/-- The bytes that left a buffer when a message was finished. -/
theorem consumed_take {b : Bytes} {n : Nat} (h : n ≤ b.length) : b.take (b.length - (b.drop n).length) = b.take n := by
  rw [List.length_drop]
  congr 1
  omega

/-- The bytes given to the decoder by a call of `progress_receive`. -/
def ReceiveAttempt (s1 s2 : Server) : Except (Interrupt ServerError) (Option ServerEvent) → Option Bytes
  | .ok (some _) => some (Server.consumed s1 s2)
  | .ok none => some s2.seen
  | .error (.error (.malformedMessage w)) => some w
  | .error (.error (.literalTooLong w)) => some w
  | _ => none

variable {L : Lib} {cmd : Decoder CommandDecodeError Command} {auth : Decoder SimpleDecodeError AuthenticateData}
  {idle : Decoder SimpleDecodeError Unit} {s s1 s2 : Server} {T : List SItem}

/-- What a line without literals gives to the decoder. -/
theorem receiveServerLine_agree {dec dec' : Decoder SimpleDecodeError μ} {st st' : ReceiveState}
    {r : Except (Interrupt ServerError) μ} (h : receiveServerLine dec st = .ok (st', r))
    (ha : ∀ w, (∀ m, r = .ok m → w = st.readBuffer.take (st.readBuffer.length - st'.readBuffer.length)) →
      (∀ d, r = .error (.error (.malformedMessage d)) → w = d) →
      ((∃ m, r = .ok m) ∨ ∃ d, r = .error (.error (.malformedMessage d))) → dec' w = dec w) :
    receiveServerLine dec' st = .ok (st', r) := by
  unfold receiveServerLine at h ⊢
  cases hn : st.next dec with
  | error p => rw [hn] at h; cases h
  | ok x =>
    obtain ⟨st1, r1⟩ := x
    rw [hn] at h
    have hb : st1.readBuffer = st.readBuffer := (ReceiveState.next_agree (dec' := dec) hn fun _ => rfl).2
    have key : Decoded r1 → dec' st1.seenPart = dec st1.seenPart := by
      intro hd
      rcases r1 with (io | (e | _ | _)) | m
      · exact hd.elim
      · dsimp only at h
        unfold discardWith at h
        cases hx : st1.discardMessage with
        | error p => rw [hx] at h; cases h
        | ok y =>
          obtain ⟨st2, d⟩ := y
          rw [hx] at h
          cases h
          have e1 := ReceiveState.discardMessage_some hx
          refine ha _ (fun m hm => by cases hm) (fun d' hd' => ?_) (.inr ⟨d, rfl⟩)
          cases hd'
          exact e1.symm
      · exact hd.elim
      · exact hd.elim
      · dsimp only at h
        unfold finishWith at h
        cases hx : st1.finishMessage with
        | error p => rw [hx] at h; cases h
        | ok st2 =>
          rw [hx] at h
          cases h
          obtain ⟨e1, e2⟩ := ReceiveState.finishMessage_some hx
          refine ha _ (fun m' hm => ?_) (fun d' hd' => by cases hd') (.inl ⟨m, rfl⟩)
          rw [e2, ← hb, consumed_take e1]
          rfl
    rw [(ReceiveState.next_agree hn key).1]
    exact h

theorem Server.progressReceive_agree {r : Except (Interrupt ServerError) (Option ServerEvent)}
    (h : Server.progressReceive L s1 = .ok (s2, r))
    (ha : ∀ w, ReceiveAttempt s1 s2 r = some w → L.Agree cmd auth idle w) :
    Server.progressReceive (L.decodeWith cmd auth idle) s1 = .ok (s2, r) := by
  obtain ⟨o, hg, snd, rcv⟩ := s1
  unfold Server.progressReceive at h ⊢
  cases rcv with
  | dummy => cases h
  | idleAccept st => exact h
  | authenticateData st =>
    dsimp only at h ⊢
    cases hl : receiveServerLine L.decodeAuthenticateData st with
    | error p => rw [hl] at h; cases h
    | ok x =>
      obtain ⟨st', r'⟩ := x
      rw [hl] at h
      have : receiveServerLine (L.decodeWith cmd auth idle).decodeAuthenticateData st = .ok (st', r') := by
        refine receiveServerLine_agree hl fun w h1 h2 h3 => ?_
        rcases h3 with ⟨m, rfl⟩ | ⟨d, rfl⟩
        · cases h
          refine (ha w ?_).2.1
          rw [h1 m rfl]; rfl
        · cases h
          refine (ha w ?_).2.1
          rw [h2 d rfl]; rfl
      rw [this]
      exact h
  | idleDone st =>
    dsimp only at h ⊢
    cases hl : receiveServerLine L.decodeIdleDone st with
    | error p => rw [hl] at h; cases h
    | ok x =>
      obtain ⟨st', r'⟩ := x
      rw [hl] at h
      have : receiveServerLine (L.decodeWith cmd auth idle).decodeIdleDone st = .ok (st', r') := by
        refine receiveServerLine_agree hl fun w h1 h2 h3 => ?_
        rcases h3 with ⟨m, rfl⟩ | ⟨d, rfl⟩
        · cases h
          refine (ha w ?_).2.2
          rw [h1 m rfl]; rfl
        · cases h
          refine (ha w ?_).2.2
          rw [h2 d rfl]; rfl
      rw [this]
      exact h
  | command st =>
    dsimp only at h ⊢
    cases hn : st.next L.decodeCommand with
    | error p => rw [hn] at h; cases h
    | ok x =>
      obtain ⟨st1, r1⟩ := x
      have hb : st1.readBuffer = st.readBuffer := (ReceiveState.next_agree (dec' := L.decodeCommand) hn fun _ => rfl).2
      rw [hn] at h
      have key : Decoded r1 → cmd st1.seenPart = L.decodeCommand st1.seenPart := by
        intro hd
        rcases r1 with (io | (e | _ | _)) | m
        · exact hd.elim
        · cases e with
          | literalFound tag k mode =>
            refine (ha _ ?_).1
            dsimp only at h
            unfold Server.literalFound at h
            dsimp only at h
            split at h
            · split at h
              · split at h
                · cases h
                · split at h
                  · cases h
                  · rename_i hx
                    cases h
                    rw [← ReceiveState.discardMessage_some hx]; rfl
              · split at h
                · cases h
                · rename_i hx
                  cases h
                  rw [← ReceiveState.discardMessage_some hx]; rfl
            · split at h
              · split at h
                · cases h
                · split at h
                  · cases h
                  · cases h; rfl
              · cases h; rfl
          | _ =>
            refine (ha _ ?_).1
            dsimp only at h
            unfold Server.discardCommand at h
            split at h
            · cases h
            · rename_i hx
              cases h
              rw [← ReceiveState.discardMessage_some hx]; rfl
        · exact hd.elim
        · exact hd.elim
        · refine (ha _ ?_).1
          dsimp only at h
          unfold Server.commandDecoded at h
          cases hx : st1.finishMessage with
          | error p => rw [hx] at h; cases h
          | ok st2 =>
            rw [hx] at h
            obtain ⟨e1, e2⟩ := ReceiveState.finishMessage_some hx
            have e3 : st.readBuffer.take (st.readBuffer.length - st2.readBuffer.length) = st1.seenPart := by
              rw [e2, ← hb, consumed_take e1]; rfl
            dsimp only at h
            split at h
            · cases h; rw [← e3]; rfl
            · cases h; rw [← e3]; rfl
            · cases h; rw [← e3]; rfl
      have hn' : st.next (L.decodeWith cmd auth idle).decodeCommand = .ok (st1, r1) :=
        (ReceiveState.next_agree (dec' := cmd) hn key).1
      rw [hn']
      exact h

theorem mem_attempts_append {w : Bytes} {U : List SItem} : w ∈ attempts (T ++ U) ↔ w ∈ attempts T ∨ w ∈ attempts U := by
  simp [attempts]

theorem Server.nextTrace_agree (h : s.nextTrace L = .ok (s1, T))
    (ha : ∀ w ∈ attempts T, L.Agree cmd auth idle w) :
    s.nextTrace (L.decodeWith cmd auth idle) = .ok (s1, T) := by
  generalize hn : s.unread = n
  induction n using Nat.strongRecOn generalizing s T with
  | _ n ih =>
    rw [Server.nextTrace_eq] at h ⊢
    have hps : Server.progressSend (L.decodeWith cmd auth idle) s = Server.progressSend L s := rfl
    rw [hps]
    cases hs : Server.progressSend L s with
    | mk t1 r =>
      rw [hs] at h
      have h1 := Server.progressSend_receiveState hs
      rcases r with (⟨_ | b⟩ | e) | _ | ev
      · exact h
      · exact h
      · exact h
      · dsimp only at h ⊢
        cases hr : Server.progressReceive L t1 with
        | error p => rw [hr] at h; cases h
        | ok x =>
          obtain ⟨t2, r⟩ := x
          rw [hr] at h
          have key : ∀ w, ReceiveAttempt t1 t2 r = some w → w ∈ attempts T := by
            intro w hw
            rcases r with (⟨_ | b⟩ | e) | _ | ev
            · cases hw
            · cases hw
            · cases h
              refine mem_attempts_append.mpr (.inr ?_)
              cases e <;> cases hw <;> exact List.mem_singleton.mpr rfl
            · dsimp only at h
              cases hx : t2.nextTrace L with
              | error p => rw [hx] at h; cases h
              | ok y =>
                rw [hx] at h
                cases h
                refine mem_attempts_append.mpr (.inr ?_)
                cases hw
                exact List.mem_cons_self
            · cases h
              refine mem_attempts_append.mpr (.inr ?_)
              cases hw
              exact List.mem_singleton.mpr rfl
          rw [Server.progressReceive_agree hr fun w hw => ha w (key w hw)]
          rcases r with (⟨_ | b⟩ | e) | _ | ev
          · exact h
          · exact h
          · exact h
          · dsimp only at h ⊢
            cases hx : t2.nextTrace L with
            | error p => rw [hx] at h; cases h
            | ok y =>
              obtain ⟨t3, items⟩ := y
              rw [hx] at h
              cases h
              have h2 := Server.progressReceive_unread hr
              have h3 : t1.unread = s.unread := by simp [Server.unread, h1]
              rw [ih t2.unread (by omega) hx (fun w hw => ha w (mem_attempts_append.mpr (.inr ?_))) rfl]
              exact List.mem_cons_of_mem _ hw
          · exact h
      · exact h

theorem Server.callTrace_agree {op : ServerOp} (h : s.callTrace L op = .ok (s1, T))
    (ha : ∀ w ∈ attempts T, L.Agree cmd auth idle w) :
    s.callTrace (L.decodeWith cmd auth idle) op = .ok (s1, T) := by
  cases op with
  | next => exact Server.nextTrace_agree h ha
  | _ => exact h

theorem Server.trace_agree {ops : List ServerOp} (h : s.trace L ops = .ok (s1, T))
    (ha : ∀ w ∈ attempts T, L.Agree cmd auth idle w) :
    s.trace (L.decodeWith cmd auth idle) ops = .ok (s1, T) := by
  induction ops generalizing s T with
  | nil => exact h
  | cons op ops ih =>
    unfold Server.trace at h ⊢
    cases hc : s.callTrace L op with
    | error p => rw [hc] at h; cases h
    | ok x =>
      obtain ⟨t, items⟩ := x
      rw [hc] at h
      dsimp only at h
      cases ht : t.trace L ops with
      | error p => rw [ht] at h; cases h
      | ok y =>
        obtain ⟨t', U⟩ := y
        rw [ht] at h
        cases h
        rw [Server.callTrace_agree hc fun w hw => ha w (mem_attempts_append.mpr (.inl hw))]
        dsimp only
        rw [ih ht fun w hw => ha w (mem_attempts_append.mpr (.inr hw))]

end ImapFlow

import Verif.Proofs.FullStreamRun
import Verif.Proofs.Receive
import Verif.Spec.Held
import Verif.Spec.StreamTrace

/-!
# How many received bytes a server holds
-/

namespace ImapFlow

variable {ε μ : Type} {n : Nat}

/-- There is a state of receiving, and it has the limit `n`. -/
def Server.Capped (n : Nat) (s : Server) : Prop := ∃ st, s.rx = some st ∧ st.maxMessageSize = some n

theorem Server.Capped.rx {s : Server} {st : ReceiveState} (h : s.Capped n) (hs : s.rx = some st) : st.maxMessageSize = some n := by
  obtain ⟨st1, h1, h2⟩ := h
  rw [hs] at h1
  cases h1
  exact h2

/-- Nothing is added to the buffer, and the limit stays. -/
def Kept (st st1 : ReceiveState) : Prop :=
  st1.maxMessageSize = st.maxMessageSize ∧ st1.readBuffer.length ≤ st.readBuffer.length

theorem Kept.trans {a b c : ReceiveState} (h1 : Kept a b) (h2 : Kept b c) : Kept a c :=
  ⟨h2.1.trans h1.1, Nat.le_trans h2.2 h1.2⟩

theorem ReceiveState.maxReadable_lt {s : ReceiveState} (hm : s.maxMessageSize = some n)
    (h : ¬some s.maxReadableBytes = s.maxMessageSize) : s.readBuffer.length < n := by
  unfold maxReadableBytes at h
  rw [hm] at h
  simp only [Option.some.injEq] at h
  omega

theorem ReceiveState.progressLine_kept {dec : Decoder ε μ} {s s1 : ReceiveState} {k : Nat}
    {r : Except (Interrupt (ReceiveError ε)) μ} (h : progressLine dec s k = .ok (s1, r)) :
    Kept s s1 ∧ ∀ io, r = .error (.io io) → s.maxMessageSize = some n → s1.readBuffer.length < n := by
  unfold progressLine at h
  dsimp only at h
  split at h
  · cases h
  split at h
  · cases h
  · split at h
    · cases h
      exact ⟨⟨rfl, Nat.le_refl _⟩, nofun⟩
    · rename_i hne
      cases h
      exact ⟨⟨rfl, Nat.le_refl _⟩, fun _ _ hm => maxReadable_lt hm hne⟩
  · split at h
    · cases h
      exact ⟨⟨rfl, Nat.le_refl _⟩, nofun⟩
    · split at h
      · split at h
        · cases h
          exact ⟨⟨rfl, Nat.le_refl _⟩, nofun⟩
        · cases h
      · cases h
        exact ⟨⟨rfl, Nat.le_refl _⟩, nofun⟩

theorem ReceiveState.progressLiteral_kept {s s1 : ReceiveState} {k : Nat}
    {r : Except (Interrupt (ReceiveError ε)) Unit} (h : progressLiteral ε s k = .ok (s1, r)) :
    Kept s s1 ∧ ∀ io, r = .error (.io io) → s.maxMessageSize = some n → s1.readBuffer.length < n := by
  unfold progressLiteral at h
  dsimp only at h
  split at h
  · cases h
  split at h
  · split at h
    · cases h
      exact ⟨⟨rfl, Nat.le_refl _⟩, nofun⟩
    · rename_i hne
      cases h
      exact ⟨⟨rfl, Nat.le_refl _⟩, fun _ _ hm => maxReadable_lt hm hne⟩
  · cases h
    exact ⟨⟨rfl, Nat.le_refl _⟩, nofun⟩

theorem ReceiveState.next_kept {dec : Decoder ε μ} {s s1 : ReceiveState}
    {r : Except (Interrupt (ReceiveError ε)) μ} (h : s.next dec = .ok (s1, r)) :
    Kept s s1 ∧ ∀ io, r = .error (.io io) → s.maxMessageSize = some n → s1.readBuffer.length < n := by
  unfold next at h
  split at h
  · exact progressLine_kept h
  · split at h
    · cases h
    · rename_i i hl
      cases h
      obtain ⟨h1, h2⟩ := progressLiteral_kept (n := n) hl
      exact ⟨h1, fun io hr hm => h2 io (by cases hr; rfl) hm⟩
    · rename_i s2 hl
      obtain ⟨h1, -⟩ := progressLiteral_kept (n := n) hl
      obtain ⟨h3, h4⟩ := progressLine_kept (n := n) h
      exact ⟨h1.trans h3, fun io hr hm => h4 io hr (h1.1.trans hm)⟩

theorem ReceiveState.finish_kept {s s1 : ReceiveState} (h : s.finishMessage = .ok s1) : Kept s s1 := by
  unfold finishMessage at h
  split at h
  · cases h
  · cases h
    exact ⟨rfl, by simp⟩

theorem ReceiveState.discard_kept {s s1 : ReceiveState} {b : Bytes} (h : s.discardMessage = .ok (s1, b)) : Kept s s1 := by
  unfold discardMessage at h
  split at h
  · cases h
  · dsimp only at h
    split at h
    · cases h
    · rename_i hf
      cases h
      exact finish_kept hf

/-- What a call of the server does to the received bytes it holds. -/
def Server.Held (n : Nat) (s s1 : Server) : Prop :=
  s.Capped n → s1.Capped n ∧ s1.buffer.length ≤ s.buffer.length

theorem Server.Held.refl (s : Server) : Held n s s := fun h => ⟨h, Nat.le_refl _⟩

theorem Server.Held.trans {a b c : Server} (h1 : Held n a b) (h2 : Held n b c) : Held n a c := fun h =>
  ⟨(h2 (h1 h).1).1, Nat.le_trans (h2 (h1 h).1).2 (h1 h).2⟩

theorem Server.Held.of_rx {s s1 : Server} {st st1 : ReceiveState} (h : s.rx = some st) (h1 : s1.rx = some st1)
    (hk : Kept st st1) : Held n s s1 := fun hl =>
  ⟨⟨st1, h1, hk.1.trans (hl.rx h)⟩,
    by simp only [buffer, h, h1]; exact hk.2⟩

theorem Server.Held.of_same {s s1 : Server} (h : s1.receiveState = s.receiveState) : Held n s s1 := fun hl => by
  have hr : s1.rx = s.rx := by simp only [rx, h]
  exact ⟨(by unfold Capped; rw [hr]; exact hl), by simp only [buffer, hr]; exact Nat.le_refl _⟩

theorem changeState_rx {a b : ServerReceiveState} {e : NextExpectedMessage} (h : a.changeState e = .ok b) {s s1 : Server}
    (hs : s.receiveState = a) (hs1 : s1.receiveState = b) : Server.Held n s s1 := by
  have key : ∃ st st1, s.rx = some st ∧ s1.rx = some st1 ∧ Kept st st1 := by
    unfold Server.rx
    rw [hs, hs1]
    cases e <;> cases a <;> simp only [ServerReceiveState.changeState, Except.ok.injEq, reduceCtorEq] at h <;>
      subst h <;> exact ⟨_, _, rfl, rfl, rfl, Nat.le_refl _⟩
  obtain ⟨st, st1, h1, h2, h3⟩ := key
  exact .of_rx h1 h2 h3

theorem receiveServerLine_kept {dec : Decoder SimpleDecodeError μ} {s s1 : ReceiveState}
    {r : Except (Interrupt ServerError) μ} (h : receiveServerLine dec s = .ok (s1, r)) :
    Kept s s1 ∧ ∀ io, r = .error (.io io) → s.maxMessageSize = some n → s1.readBuffer.length < n := by
  have hf : ∀ {a : ReceiveState} {m : μ} {ε' : Type} {x : ReceiveState × Except (Interrupt ε') μ},
      finishWith a m = .ok x → Kept a x.1 ∧ ∀ io, x.2 ≠ .error (.io io) := by
    intro a m ε' x hx
    unfold finishWith at hx
    split at hx
    · cases hx
    · rename_i h1
      cases hx
      exact ⟨ReceiveState.finish_kept h1, nofun⟩
  have hd : ∀ {a : ReceiveState} {ε' : Type} {mk : Bytes → ε'} {x : ReceiveState × Except (Interrupt ε') μ},
      discardWith a mk = .ok x → Kept a x.1 ∧ ∀ io, x.2 ≠ .error (.io io) := by
    intro a ε' mk x hx
    unfold discardWith at hx
    split at hx
    · cases hx
    · rename_i h1
      cases hx
      exact ⟨ReceiveState.discard_kept h1, nofun⟩
  unfold receiveServerLine at h
  split at h
  · cases h
  · rename_i hn
    obtain ⟨h1, -⟩ := ReceiveState.next_kept (n := n) hn
    obtain ⟨h3, h4⟩ := hf h
    exact ⟨h1.trans h3, fun io hr => (h4 io hr).elim⟩
  · rename_i hn
    cases h
    obtain ⟨h1, h2⟩ := ReceiveState.next_kept (n := n) hn
    exact ⟨h1, fun io hr hm => h2 _ rfl hm⟩
  all_goals
    rename_i hn
    obtain ⟨h1, -⟩ := ReceiveState.next_kept (n := n) hn
    obtain ⟨h3, h4⟩ := hd h
    exact ⟨h1.trans h3, fun io hr => (h4 io hr).elim⟩

namespace Server

variable {L : Lib}

/-- As `Held`; and when more input is needed, less than `n` bytes are held, unless IDLE waits. -/
def Asks (n : Nat) (s s1 : Server) (r : Except (Interrupt ServerError) (Option ServerEvent)) : Prop :=
  Held n s s1 ∧ ∀ io, r = .error (.io io) → s.Capped n → s1.idleWaits = false → s1.buffer.length < n

theorem Asks.not_io {s s1 : Server} {r : Except (Interrupt ServerError) (Option ServerEvent)} (h : Held n s s1)
    (hr : ∀ io, r ≠ .error (.io io)) : Asks n s s1 r := ⟨h, fun io h1 => (hr io h1).elim⟩

theorem discardCommand_asks {s s1 : Server} {st st0 : ReceiveState} {mk : Bytes → ServerError}
    {r : Except (Interrupt ServerError) (Option ServerEvent)} (hs : s.rx = some st0) (hk : Kept st0 st)
    (h : discardCommand s st mk = .ok (s1, r)) : Asks n s s1 r := by
  unfold discardCommand at h
  split at h
  · cases h
  · rename_i st1 b hd
    cases h
    exact .not_io (.of_rx hs rfl (hk.trans (ReceiveState.discard_kept hd))) nofun

theorem commandDecoded_asks {s s1 : Server} {st st0 : ReceiveState} {command : Command}
    {r : Except (Interrupt ServerError) (Option ServerEvent)} (hs : s.rx = some st0) (hk : Kept st0 st)
    (h : commandDecoded s st command = .ok (s1, r)) : Asks n s s1 r := by
  unfold commandDecoded at h
  split at h
  · cases h
  · rename_i st1 hf
    have hm : Held n s { s with receiveState := .command st1 } := .of_rx hs rfl (hk.trans (ReceiveState.finish_kept hf))
    split at h
    · split at h
      · cases h
      · rename_i hc
        cases h
        exact .not_io (hm.trans (changeState_rx (n := n) hc rfl rfl)) nofun
    · split at h
      · cases h
      · rename_i hc
        cases h
        exact .not_io (hm.trans (changeState_rx (n := n) hc rfl rfl)) nofun
    · cases h
      exact .not_io hm nofun

theorem literalFound_asks {s s1 : Server} {st st0 : ReceiveState} {tag : Tag} {k : Nat} {mode : LiteralMode}
    {r : Except (Interrupt ServerError) (Option ServerEvent)} (hs : s.rx = some st0) (hk : Kept st0 st)
    (h : literalFound L s st tag k mode = .ok (s1, r)) : Asks n s s1 r := by
  unfold literalFound at h
  split at h
  · split at h
    · split at h
      · cases h
      · dsimp only at h
        split at h
        · cases h
        · rename_i hd
          cases h
          exact .not_io (.of_rx hs rfl (hk.trans (ReceiveState.discard_kept hd))) nofun
    · split at h
      · cases h
      · rename_i hd
        cases h
        exact .not_io (.of_rx hs rfl (hk.trans (ReceiveState.discard_kept hd))) nofun
  · have hl : Kept st0 (st.startLiteral k) := hk.trans ⟨rfl, Nat.le_refl _⟩
    dsimp only at h
    split at h
    · split at h
      · cases h
      · split at h
        · cases h
        · cases h
          exact .not_io (.of_rx hs rfl hl) nofun
    · cases h
      exact .not_io (.of_rx hs rfl hl) nofun

theorem progressReceive_asks {s s1 : Server} {r : Except (Interrupt ServerError) (Option ServerEvent)}
    (h : progressReceive L s = .ok (s1, r)) : Asks n s s1 r := by
  unfold progressReceive at h
  split at h
  · rename_i st hst
    have hs : s.rx = some st := by simp only [rx, hst]
    split at h
    · cases h
    · rename_i hn
      exact commandDecoded_asks hs (ReceiveState.next_kept (n := n) hn).1 h
    · rename_i hn
      cases h
      obtain ⟨h1, h2⟩ := ReceiveState.next_kept (n := n) hn
      exact ⟨.of_rx hs rfl h1, fun io hr hl _ => h2 _ rfl (hl.rx hs)⟩
    · rename_i hn
      exact literalFound_asks hs (ReceiveState.next_kept (n := n) hn).1 h
    all_goals
      rename_i hn
      exact discardCommand_asks hs (ReceiveState.next_kept (n := n) hn).1 h
  · rename_i st hst
    have hs : s.rx = some st := by simp only [rx, hst]
    split at h
    · cases h
    · rename_i hn
      cases h
      obtain ⟨h1, h2⟩ := receiveServerLine_kept (n := n) hn
      exact ⟨.of_rx hs rfl h1, fun io hr hl _ => h2 io (by cases hr; rfl) (hl.rx hs)⟩
    · rename_i hn
      cases h
      exact .not_io (.of_rx hs rfl (receiveServerLine_kept (n := n) hn).1) nofun
  · rename_i st hst
    cases h
    exact ⟨.refl s, fun _ _ _ hi => by simp [idleWaits, hst] at hi⟩
  · rename_i st hst
    have hs : s.rx = some st := by simp only [rx, hst]
    split at h
    · cases h
    · rename_i hn
      cases h
      obtain ⟨h1, h2⟩ := receiveServerLine_kept (n := n) hn
      exact ⟨.of_rx hs rfl h1, fun io hr hl _ => h2 io (by cases hr; rfl) (hl.rx hs)⟩
    · rename_i st1 hn
      split at h
      · cases h
      · rename_i hc
        cases h
        have hm : Held n s { s with receiveState := .idleDone st1 } :=
          .of_rx hs rfl (receiveServerLine_kept (n := n) hn).1
        exact .not_io (hm.trans (changeState_rx (n := n) hc rfl rfl)) nofun
  · cases h

theorem progressSend_io (hL : L.Speaks) {s s1 : Server} {io : Io} (h : progressSend L s = (s1, .error (.io io))) :
    FullStream.outputBytes io ≠ [] := by
  unfold progressSend at h
  split at h <;> simp only [Prod.mk.injEq, Except.error.injEq, Interrupt.io.injEq, reduceCtorEq, and_false] at h
  rename_i hn
  unfold ServerSendState.next at hn
  split at hn
  · simp at hn
  · split at hn
    · simp at hn
    · rename_i m _ _
      simp only [Prod.mk.injEq, Except.error.injEq, Interrupt.io.injEq] at hn
      rw [← h.2, ← hn.2]
      cases m with
      | greeting g => exact hL.1 g
      | response _ r => exact hL.2 r

/-- `next` adds nothing to the buffer; if it asks for more input, less than `n` bytes are held unless IDLE waits. -/
theorem next_asks {s s1 : Server} {r : Except (Interrupt ServerError) ServerEvent} (h : s.next L = .ok (s1, r)) :
    Held n s s1 ∧ (L.Speaks → ∀ io, r = .error (.io io) → FullStream.outputBytes io = [] → s.Capped n →
      s1.idleWaits = false → s1.buffer.length < n) := by
  fun_induction Server.next L s with
  | case1 s s2 i hs =>
    cases h
    refine ⟨.of_same (Server.progressSend_receiveState hs), ?_⟩
    rintro hL io ⟨⟩ he
    exact (progressSend_io hL hs he).elim
  | case2 s s2 e hs =>
    cases h
    exact ⟨.of_same (Server.progressSend_receiveState hs), nofun⟩
  | case3 => cases h
  | case4 s s2 hs s3 i hr =>
    cases h
    obtain ⟨h1, h2⟩ := progressReceive_asks (n := n) hr
    have h0 : Held n s s2 := .of_same (Server.progressSend_receiveState hs)
    exact ⟨h0.trans h1, fun _ io hi _ hl hw => h2 io (by cases hi; rfl) (h0 hl).1 hw⟩
  | case5 s s2 hs s3 e hr =>
    cases h
    have h0 : Held n s s2 := .of_same (Server.progressSend_receiveState hs)
    exact ⟨h0.trans (progressReceive_asks (n := n) hr).1, nofun⟩
  | case6 s s2 hs s3 hr ih =>
    obtain ⟨h1, h2⟩ := ih h
    have h0 : Held n s s2 := .of_same (Server.progressSend_receiveState hs)
    have h3 := h0.trans (progressReceive_asks (n := n) hr).1
    exact ⟨h3.trans h1, fun hL io hi he hl hw => h2 hL io hi he (h3 hl).1 hw⟩

theorem enqueueInput_held {s : Server} (b : Bytes) (h : s.Capped n) :
    ∃ s1, s.enqueueInput b = .ok s1 ∧ s1.Capped n ∧ s1.buffer.length = s.buffer.length + b.length := by
  obtain ⟨st, h1, h2⟩ := h
  have e : ∀ s1 : Server, s1.rx = some (st.enqueueInput b) →
      s1.Capped n ∧ s1.buffer.length = s.buffer.length + b.length := fun s1 h3 =>
    ⟨⟨_, h3, h2⟩, by simp [buffer, h3, h1, ReceiveState.enqueueInput]⟩
  unfold rx at h1
  unfold enqueueInput
  split at h1
  all_goals first | (cases h1; done) | (rename_i hr; cases h1; rw [hr]; exact ⟨_, rfl, e _ rfl⟩)

theorem authenticateFinish_held {s s1 : Server} {status : Status} {r : Except Status RawHandle}
    (h : s.authenticateFinish status = .ok (s1, r)) : Held n s s1 := by
  unfold authenticateFinish at h
  split at h
  · dsimp only at h
    split at h
    · cases h
    · rename_i hc
      cases h
      exact Held.trans (.of_same rfl) (changeState_rx (s := (s.enqueueStatus status).1) hc rfl rfl)
  · cases h
    exact .refl _

theorem idleAccept_held {s s1 : Server} {request : ContinuationRequest} {r : Except ContinuationRequest RawHandle}
    (h : s.idleAccept request = .ok (s1, r)) : Held n s s1 := by
  unfold idleAccept at h
  split at h
  · dsimp only at h
    split at h
    · cases h
    · rename_i hc
      cases h
      exact Held.trans (.of_same rfl) (changeState_rx (s := (s.enqueueContinuationRequest request).1) hc rfl rfl)
  · cases h
    exact .refl _

theorem idleReject_held {s s1 : Server} {status : Status} {r : Except Status RawHandle}
    (h : s.idleReject status = .ok (s1, r)) : Held n s s1 := by
  unfold idleReject at h
  split at h
  · dsimp only at h
    split at h
    · cases h
    · rename_i hc
      cases h
      exact Held.trans (.of_same rfl) (changeState_rx (s := (s.enqueueStatus status).1) hc rfl rfl)
  · cases h
    exact .refl _

theorem call_held {s s1 : Server} {op : ServerOp} {x : ServerObs} (h : s.call L op = .ok (s1, x))
    (ho : ∀ b, op ≠ .enqueueInput b) : Held n s s1 := by
  have hm : ∀ {α β : Type} {e : Except Panic α} {f : α → β} {y : β}, e.map f = .ok y → ∃ a, e = .ok a ∧ f a = y := by
    intro α β e f y h
    cases e with
    | error => cases h
    | ok a => cases h; exact ⟨a, rfl, rfl⟩
  cases op with
  | enqueueData _ | enqueueStatus _ | enqueueContinuationRequest _ => cases h; exact .of_same rfl
  | authenticateContinue request =>
    simp only [call, authenticateContinue] at h
    split at h <;> cases h <;> exact .of_same rfl
  | authenticateFinish status =>
    obtain ⟨⟨s2, r⟩, h1, h2⟩ := hm h
    cases h2
    exact authenticateFinish_held h1
  | idleAccept request =>
    obtain ⟨⟨s2, r⟩, h1, h2⟩ := hm h
    cases h2
    exact idleAccept_held h1
  | idleReject status =>
    obtain ⟨⟨s2, r⟩, h1, h2⟩ := hm h
    cases h2
    exact idleReject_held h1
  | enqueueInput b => exact (ho b rfl).elim
  | next =>
    obtain ⟨⟨s2, r⟩, h1, h2⟩ := hm h
    cases h2
    exact (next_asks h1).1

theorem user_held {s s1 : Server} {op : ServerOp} (h : (serverMachine L).user s op = .ok s1)
    (ho : ∀ b, op ≠ .enqueueInput b) : Held n s s1 := by
  simp only [serverMachine] at h
  cases hc : s.call L op with
  | error => rw [hc] at h; cases h
  | ok x =>
    rw [hc] at h
    cases h
    exact call_held hc ho

end Server

namespace FullStream

variable {K : Type} {L : Lib}

/-- There is no TLS, and while the stream only waits for input, nothing waits to be written and less than `n` bytes wait to be
decoded, unless IDLE waits. -/
structure Below (n : Nat) (c : FullStream K Server) : Prop where
  plain : c.tls = none
  limited : c.state.Capped n
  empty : c.ctl = .at .reading → c.readBuffer = [] ∧ c.writeBuffer = []
  below : c.ctl = .at .reading → c.state.idleWaits = false → c.state.buffer.length < n

theorem Takes.of_plain {σ : Type} {c : FullStream K σ} {tls : Option (Tls K)} {rest b : Bytes} (h : c.Takes tls rest b) (hp : c.tls = none) :
    tls = none ∧ rest = [] ∧ b = c.readBuffer := by
  cases h with
  | plain _ => exact ⟨rfl, rfl, rfl⟩
  | tls h1 _ => rw [hp] at h1; cases h1

theorem provides_held {b : Bytes} {s s1 : Server} {D : List (StreamItem ServerError ServerEvent ServerOp)}
    (h : Provides (serverMachine L) b s s1 D) (hl : s.Capped n) :
    s1.Capped n ∧ s1.buffer.length = s.buffer.length + b.length := by
  rcases h with ⟨rfl, rfl, -⟩ | ⟨-, h, -⟩
  · exact ⟨hl, rfl⟩
  · obtain ⟨s2, h1, h2⟩ := Server.enqueueInput_held b hl
    have h3 : s.enqueueInput b = .ok s1 := h
    rw [h1] at h3
    cases h3
    exact h2

theorem Advanced.held (hL : L.Speaks) {c c' : FullStream K Server} {T : List (FullItem ServerError ServerEvent ServerOp)}
    (h : Advanced (serverMachine L) c c' T) (hp : c.tls = none) (hl : c.state.Capped n) :
    Below n c' ∧ c'.held ≤ c.held := by
  cases h with
  | hung h1 => rw [hp] at h1; cases h1
  | broken h1 => rw [hp] at h1; cases h1
  | inputPanic _ h1 =>
    obtain ⟨s2, h2, -⟩ := Server.enqueueInput_held _ hl
    have h3 : c.state.enqueueInput _ = .error _ := h1
    rw [h2] at h3
    cases h3
  | nextPanic h1 h2 h3 h4 =>
    obtain ⟨rfl, rfl, rfl⟩ := h1.of_plain hp
    obtain ⟨h5, h6⟩ := provides_held h2 hl
    subst h4
    exact ⟨⟨rfl, h5, nofun, nofun⟩, by simp only [FullStream.held, h6, List.length_nil]; omega⟩
  | returned h1 h2 h3 h4 h5 =>
    obtain ⟨rfl, rfl, rfl⟩ := h1.of_plain hp
    obtain ⟨h6, h7⟩ := provides_held h2 hl
    obtain ⟨h8, h9⟩ := (Server.next_asks (n := n) h3).1 h6
    subst h5
    exact ⟨⟨rfl, h8, nofun, nofun⟩, by simp only [FullStream.held, List.length_nil]; omega⟩
  | @waits _ _ _ _ _ _ io _ h1 h2 h3 h4 h5 =>
    obtain ⟨rfl, rfl, rfl⟩ := h1.of_plain hp
    obtain ⟨h6, h7⟩ := provides_held h2 hl
    obtain ⟨h10, h11⟩ := Server.next_asks (n := n) h3
    obtain ⟨h8, h9⟩ := h10 h6
    simp only [handleOutput, Prod.mk.injEq, and_true] at h4
    subst h4
    subst h5
    refine ⟨⟨rfl, h8, ?_, ?_⟩, by simp only [FullStream.held, List.length_nil]; omega⟩
    · intro hc
      dsimp only at hc ⊢
      split at hc
      · rename_i he
        exact ⟨rfl, List.isEmpty_iff.mp he⟩
      · cases hc
    · intro hc hi
      dsimp only at hc hi ⊢
      split at hc
      · rename_i he
        exact h11 hL io rfl (List.append_eq_nil_iff.mp (List.isEmpty_iff.mp he)).2 h6 hi
      · cases hc
  | refused h1 h2 h3 h4 h5 =>
    obtain ⟨rfl, rfl, rfl⟩ := h1.of_plain hp
    simp [handleOutput] at h4

/-- What can happen in a step, if the owner of the stream gives no input to the server. -/
theorem step_held (hL : L.Speaks) {c c' : FullStream K Server} {a : StreamAct ServerOp}
    {T : List (FullItem ServerError ServerEvent ServerOp)} (h : c.step (serverMachine L) a = some (c', T))
    (hb : Below n c) (ha : ∀ b, a ≠ .user (.enqueueInput b)) :
    Below n c' ∧ c'.held ≤ c.held + a.given := by
  have hidle : ∀ c1 : FullStream K Server, c1.tls = c.tls → c1.state = c.state → c1.readBuffer = c.readBuffer →
      c1.ctl ≠ .at .reading → ∀ k, Below n c1 ∧ c1.held ≤ c.held + k := fun c1 e1 e2 e3 e4 k =>
    ⟨⟨e1.trans hb.plain, e2 ▸ hb.limited, fun h => (e4 h).elim, fun h => (e4 h).elim⟩,
      by simp only [FullStream.held, e2, e3]; omega⟩
  cases a with
  | user op =>
    simp only [step] at h
    split at h
    · rename_i hc
      split at h <;> rename_i hu <;> cases h
      · (apply hidle <;> simp)
      · obtain ⟨h1, h2⟩ := Server.user_held hu (fun b he => ha b (by rw [he])) hb.limited
        have hn : c.ctl ≠ .at .reading := by rw [hc]; nofun
        exact ⟨⟨hb.plain, h1, fun h => (hn h).elim, fun h => (hn h).elim⟩, by simp only [FullStream.held]; omega⟩
    · cases h
  | callNext =>
    simp only [step] at h
    split at h
    · cases h
      exact (advance_cases _ c).held hL hb.plain hb.limited
    · cases h
  | callFlush =>
    simp only [step] at h
    split at h
    · rename_i hc
      simp only [startFlush, handleOutput, hb.plain, Option.some.injEq] at h
      split at h <;> cases h <;> (apply hidle <;> simp [hc, hb.plain])
    · cases h
  | read b =>
    simp only [step] at h
    have key : c.completeRead (serverMachine L) b = (c', T) → Below n c' ∧ c'.held ≤ c.held + b.length := by
      intro h
      simp only [completeRead] at h
      split at h
      · cases h
        rename_i he
        have : b = [] := List.length_eq_zero_iff.mp he
        subst this
        (apply hidle <;> simp)
      · cases h
        obtain ⟨h1, h2⟩ := (advance_cases (serverMachine L) { c with readBuffer := c.readBuffer ++ b }).held hL hb.plain hb.limited
        refine ⟨h1, Nat.le_trans h2 ?_⟩
        simp only [FullStream.held, List.length_append]
        omega
    split at h
    · exact key (Option.some.inj h)
    · exact key (Option.some.inj h)
    · cases h
  | write k =>
    simp only [step] at h
    split at h
    · split at h
      · rename_i hc
        simp only [completeWrite, Option.some.injEq] at h
        split at h
        · cases h
          (apply hidle <;> simp)
        · split at h
          · cases h
            exact (advance_cases (serverMachine L) { c with writeBuffer := c.writeBuffer.drop k }).held hL hb.plain hb.limited
          · cases h
            (apply hidle <;> simp [hc])
      · rename_i hc
        simp only [completeFlush, Option.some.injEq] at h
        split at h
        · cases h
          (apply hidle <;> simp)
        · split at h
          · cases h
            (apply hidle <;> simp)
          · cases h
            (apply hidle <;> simp [hc])
      · cases h
    · cases h
  | fail =>
    simp only [step] at h
    split at h <;> cases h <;> (apply hidle <;> simp)
  | drop =>
    simp only [step] at h
    split at h <;> cases h <;> (apply hidle <;> simp)

theorem run_below (hL : L.Speaks) {as : List (StreamAct ServerOp)} {c c' : FullStream K Server}
    {T : List (FullItem ServerError ServerEvent ServerOp)} (h : c.run (serverMachine L) as = some (c', T))
    (hb : Below n c) (ha : ∀ b, .user (.enqueueInput b) ∉ as) : Below n c' := by
  induction as generalizing c T with
  | nil => cases h; exact hb
  | cons a as ih =>
    obtain ⟨c1, T1, T2, h1, h2, -⟩ := run_cons h
    exact ih h2 (step_held hL h1 hb fun b he => ha b (by rw [he]; exact List.mem_cons_self)).1
      fun b hm => ha b (List.mem_cons_of_mem _ hm)

theorem run_held (hL : L.Speaks) {N : Nat} {as : List (StreamAct ServerOp)} {c c' : FullStream K Server}
    {T : List (FullItem ServerError ServerEvent ServerOp)} (h : c.run (serverMachine L) as = some (c', T))
    (hb : Below n c) (hh : c.held ≤ n + N) (ha : c.modest L N as = true) : c'.held ≤ n + N := by
  induction as generalizing c T with
  | nil => cases h; exact hh
  | cons a as ih =>
    obtain ⟨c1, T1, T2, h1, h2, -⟩ := run_cons h
    simp only [modest, h1, Bool.and_eq_true] at ha
    obtain ⟨h3, h4⟩ := ha
    obtain ⟨h5, h6⟩ := step_held hL h1 hb (by rintro b rfl; cases h3)
    refine ih h2 h5 ?_ h4
    cases a with
    | read b =>
      simp only [Bool.and_eq_true, beq_iff_eq, Bool.not_eq_true', decide_eq_true_eq, and_assoc] at h3
      dsimp only [StreamAct.given] at h6
      have h7 := hb.below h3.1 h3.2.1
      have h8 := (hb.empty h3.1).1
      have h9 : c.held = c.state.buffer.length := by simp [FullStream.held, h8]
      omega
    | _ => exact Nat.le_trans h6 hh

theorem run_given (hL : L.Speaks) {as : List (StreamAct ServerOp)} {c c' : FullStream K Server}
    {T : List (FullItem ServerError ServerEvent ServerOp)} (h : c.run (serverMachine L) as = some (c', T))
    (hb : Below n c) (ha : ∀ b, .user (.enqueueInput b) ∉ as) : c'.held ≤ c.held + (as.map StreamAct.given).sum := by
  induction as generalizing c T with
  | nil => cases h; exact Nat.le_add_right _ _
  | cons a as ih =>
    obtain ⟨c1, T1, T2, h1, h2, -⟩ := run_cons h
    obtain ⟨h3, h4⟩ := step_held hL h1 hb fun b he => ha b (by rw [he]; exact List.mem_cons_self)
    have h5 := ih h2 h3 fun b hm => ha b (List.mem_cons_of_mem _ hm)
    simp only [List.map_cons, List.sum_cons]
    omega

theorem insecure_below (g : HandleGenerator) (o : ServerOptions) (gr : Greeting) :
    Below o.maxCommandSize (insecure (K := K) (Server.new g o gr)) :=
  ⟨rfl, ⟨_, rfl, rfl⟩, nofun, nofun⟩

end FullStream

end ImapFlow

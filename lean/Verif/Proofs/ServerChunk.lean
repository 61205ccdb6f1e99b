import Verif.Proofs.ClientChunk
import Verif.Spec.ServerHistory

/-!
# Server reception is a deterministic function of the input stream
-/

namespace ImapFlow

theorem receiveServerLine_ext {μ : Type} {dec : Decoder SimpleDecodeError μ} {s : ReceiveState}
    (h : s.Sound) (x : Bytes) :
    (∃ s1, receiveServerLine dec s = .ok (s1, .error (.io .needMoreInput))) ∨
    receiveServerLine dec (s.enqueueInput x) = extRes x (receiveServerLine dec s) := by
  rcases ReceiveState.next_enqueue (dec := dec) h x with ⟨s1, h1⟩ | h1
  · left
    unfold receiveServerLine
    rw [h1]
    exact ⟨s1, rfl⟩
  · right
    have hst := fun s1 r => ReceiveState.next_state (s1 := s1) (r := r) (dec := dec) h
    unfold receiveServerLine
    generalize s.next dec = out at *
    generalize (s.enqueueInput x).next dec = out' at *
    cases h1 with
    | panic => rfl
    | @tooLong s1 f =>
      have hle : s1.seenBytes ≤ s1.readBuffer.length :=
        Nat.le_trans (hst s1 _ rfl).2.2.2.1 s1.maxReadableBytes_le
      simp only
      rw [discardWith_frag]
      exact discardWith_ext x hle
    | @same s1 r =>
      have hle : s1.seenBytes ≤ s1.readBuffer.length :=
        Nat.le_trans (hst s1 r rfl).2.2.2.1 s1.maxReadableBytes_le
      rcases r with (io | (_ | _ | _)) | m
      · rfl
      · exact discardWith_ext x hle
      · exact discardWith_ext x hle
      · exact discardWith_ext x hle
      · exact finishWith_ext x hle

theorem receiveServerLine_resume {μ : Type} {dec : Decoder SimpleDecodeError μ} {s s1 : ReceiveState}
    (h : s.Sound) (hn : receiveServerLine dec s = .ok (s1, .error (.io .needMoreInput))) :
    s1.Sound ∧
      ∀ x, receiveServerLine dec (s1.enqueueInput x) = receiveServerLine dec (s.enqueueInput x) := by
  have key : s.next dec = .ok (s1, .error (.io .needMoreInput)) := by
    unfold receiveServerLine at hn
    split at hn
    · cases hn
    · unfold finishWith at hn
      split at hn <;> simp at hn
    · rename_i s2 io heq
      simp only [Except.ok.injEq, Prod.mk.injEq, Except.error.injEq, Interrupt.io.injEq] at hn
      obtain ⟨rfl, rfl⟩ := hn
      exact heq
    all_goals
      unfold discardWith at hn
      split at hn <;> simp at hn
  obtain ⟨h1, -, h2⟩ := ReceiveState.next_resume h key
  refine ⟨h1, fun x => ?_⟩
  unfold receiveServerLine
  rw [h2 x]

theorem receiveServerLine_sound {μ : Type} {dec : Decoder SimpleDecodeError μ} {s s1 : ReceiveState}
    {r : Except (Interrupt ServerError) μ} (h : s.Sound)
    (hn : receiveServerLine dec s = .ok (s1, r)) : s1.Sound := by
  unfold receiveServerLine at hn
  split at hn
  · cases hn
  · rename_i s2 m heq
    have hst := ReceiveState.next_state h heq
    unfold finishWith at hn
    rw [ReceiveState.finishMessage_eq (Nat.le_trans hst.2.2.2.1 s2.maxReadableBytes_le)] at hn
    simp only [Except.ok.injEq, Prod.mk.injEq] at hn
    rw [← hn.1]; exact ReceiveState.sound_fresh
  · rename_i s2 io heq
    simp only [Except.ok.injEq, Prod.mk.injEq] at hn
    rw [← hn.1]; exact (ReceiveState.next_state h heq).2.2.2.2 (by simp)
  all_goals
    rename_i heq
    have hst := ReceiveState.next_state h heq
    unfold discardWith at hn
    rw [ReceiveState.discardMessage_eq (Nat.le_trans hst.2.2.2.1 (ReceiveState.maxReadableBytes_le _))] at hn
    simp only [Except.ok.injEq, Prod.mk.injEq] at hn
    rw [← hn.1]; exact ReceiveState.sound_fresh

namespace Server

/-- `enqueueInput` as a total function. -/
def feed (s : Server) (x : Bytes) : Server :=
  match s.receiveState with
  | .command st => { s with receiveState := .command (st.enqueueInput x) }
  | .authenticateData st => { s with receiveState := .authenticateData (st.enqueueInput x) }
  | .idleAccept st => { s with receiveState := .idleAccept (st.enqueueInput x) }
  | .idleDone st => { s with receiveState := .idleDone (st.enqueueInput x) }
  | .dummy => s

/-- The receive buffer is consistent. -/
def Sound (s : Server) : Prop :=
  match s.receiveState with
  | .command st | .authenticateData st | .idleAccept st | .idleDone st => st.Sound
  | .dummy => False

theorem enqueueInput_eq {s : Server} (h : s.Sound) (x : Bytes) : s.enqueueInput x = .ok (s.feed x) := by
  unfold Sound at h
  unfold enqueueInput feed
  split <;> simp_all

theorem Sound.feed {s : Server} (h : s.Sound) (x : Bytes) : (s.feed x).Sound := by
  obtain ⟨o, g, ss, rs⟩ := s
  unfold Sound at h
  cases rs with
  | dummy => exact h.elim
  | _ st => exact ReceiveState.Sound.enqueue h x

theorem feed_nil (s : Server) : s.feed [] = s := by
  obtain ⟨o, g, ss, rs⟩ := s
  unfold feed
  cases rs <;> simp [ReceiveState.enqueueInput_nil]

theorem feed_append (s : Server) (x y : Bytes) : s.feed (x ++ y) = (s.feed x).feed y := by
  obtain ⟨o, g, ss, rs⟩ := s
  unfold feed
  cases rs <;> simp [ReceiveState.enqueueInput_append]

/-- Append input to the state of a result. -/
def ext {α : Type} (x : Bytes) : Except Panic (Server × α) → Except Panic (Server × α)
  | .error p => .error p
  | .ok (s, r) => .ok (s.feed x, r)

theorem changeCodec_ext (s : ReceiveState) (x : Bytes) :
    (s.enqueueInput x).changeCodec = s.changeCodec.enqueueInput x := rfl

theorem finishMessage_ext {s : ReceiveState} (h : s.seenBytes ≤ s.readBuffer.length) (x : Bytes) :
    (s.enqueueInput x).finishMessage = .ok
      ((ReceiveState.withReadBuffer s.crlfRelaxed s.maxMessageSize
        (s.readBuffer.drop s.seenBytes)).enqueueInput x) := by
  rw [ReceiveState.finishMessage_eq (by show s.seenBytes ≤ (s.readBuffer ++ x).length; simp; omega)]
  show Except.ok (ReceiveState.withReadBuffer _ _ ((s.readBuffer ++ x).drop s.seenBytes)) = _
  rw [List.drop_append_of_le_length h]
  rfl

theorem discardMessage_ext {s : ReceiveState} (h : s.seenBytes ≤ s.readBuffer.length) (x : Bytes) :
    (s.enqueueInput x).discardMessage = .ok
      ((ReceiveState.withReadBuffer s.crlfRelaxed s.maxMessageSize
        (s.readBuffer.drop s.seenBytes)).enqueueInput x, s.readBuffer.take s.seenBytes) := by
  rw [ReceiveState.discardMessage_eq (by show s.seenBytes ≤ (s.readBuffer ++ x).length; simp; omega)]
  show Except.ok (ReceiveState.withReadBuffer _ _ ((s.readBuffer ++ x).drop s.seenBytes),
    (s.readBuffer ++ x).take s.seenBytes) = _
  rw [List.drop_append_of_le_length h, List.take_append_of_le_length h]
  rfl

theorem discardCommand_ext {s : Server} {st : ReceiveState} {mk : Bytes → ServerError}
    (h : st.seenBytes ≤ st.readBuffer.length) (x : Bytes) (rs : ServerReceiveState) :
    discardCommand { s with receiveState := rs } (st.enqueueInput x) mk = ext x (discardCommand s st mk) := by
  unfold discardCommand
  rw [discardMessage_ext h, ReceiveState.discardMessage_eq h]
  rfl

theorem commandDecoded_ext {s : Server} {st : ReceiveState} {cmd : Command}
    (h : st.seenBytes ≤ st.readBuffer.length) (x : Bytes) (rs : ServerReceiveState) :
    commandDecoded { s with receiveState := rs } (st.enqueueInput x) cmd = ext x (commandDecoded s st cmd) := by
  unfold commandDecoded
  rw [finishMessage_ext h, ReceiveState.finishMessage_eq h]
  obtain ⟨tag, body⟩ := cmd
  cases body <;> rfl

theorem literalFound_ext {L : Lib} {s : Server} {st : ReceiveState} {tag : Tag} {len : Nat}
    {mode : LiteralMode} (h : st.seenBytes ≤ st.readBuffer.length) (x : Bytes) (rs : ServerReceiveState) :
    literalFound L { s with receiveState := rs } (st.enqueueInput x) tag len mode =
      ext x (literalFound L s st tag len mode) := by
  unfold literalFound
  rw [discardMessage_ext h, ReceiveState.discardMessage_eq h]
  simp only
  split
  · cases mode
    · simp only
      split <;> rfl
    · rfl
  · cases mode
    · simp only
      split
      · rfl
      · split <;> rfl
    · rfl

theorem progressReceive_feed {L : Lib} {s : Server} (h : s.Sound) (x : Bytes) :
    (∃ s1, progressReceive L s = .ok (s1, .error (.io .needMoreInput))) ∨
    progressReceive L (s.feed x) = ext x (progressReceive L s) := by
  obtain ⟨o, g, ss, rs⟩ := s
  unfold Sound at h
  cases rs with
  | dummy => exact h.elim
  | command st =>
    rcases ReceiveState.next_enqueue (dec := L.decodeCommand) h x with ⟨s1, h1⟩ | h1
    · left; simp only [progressReceive, h1]; exact ⟨_, rfl⟩
    · right
      have hst := fun s1 r => ReceiveState.next_state (s1 := s1) (r := r) (dec := L.decodeCommand) h
      simp only [progressReceive, feed]
      generalize st.next L.decodeCommand = out at *
      generalize (st.enqueueInput x).next L.decodeCommand = out' at *
      cases h1 with
      | panic => rfl
      | @tooLong s1 f =>
        have hle : s1.seenBytes ≤ s1.readBuffer.length :=
          Nat.le_trans (hst s1 _ rfl).2.2.2.1 s1.maxReadableBytes_le
        simp only
        exact discardCommand_ext (s := ⟨o, g, ss, .command st⟩) hle x _
      | @same s1 r =>
        have hle : s1.seenBytes ≤ s1.readBuffer.length :=
          Nat.le_trans (hst s1 r rfl).2.2.2.1 s1.maxReadableBytes_le
        rcases r with (io | ((_ | _ | _) | _ | _)) | m
        · rfl
        · exact discardCommand_ext (s := ⟨o, g, ss, .command st⟩) hle x _
        · exact literalFound_ext (s := ⟨o, g, ss, .command st⟩) hle x _
        · exact discardCommand_ext (s := ⟨o, g, ss, .command st⟩) hle x _
        · exact discardCommand_ext (s := ⟨o, g, ss, .command st⟩) hle x _
        · exact discardCommand_ext (s := ⟨o, g, ss, .command st⟩) hle x _
        · exact commandDecoded_ext (s := ⟨o, g, ss, .command st⟩) hle x _
  | authenticateData st =>
    rcases receiveServerLine_ext (dec := L.decodeAuthenticateData) h x with ⟨s1, h1⟩ | h1
    · left; simp only [progressReceive, h1]; exact ⟨_, rfl⟩
    · right
      simp only [progressReceive, feed, h1]
      cases h2 : receiveServerLine L.decodeAuthenticateData st with
      | error p => rfl
      | ok v =>
        obtain ⟨s1, r⟩ := v
        cases r <;> rfl
  | idleAccept st => exact .inl ⟨_, rfl⟩
  | idleDone st =>
    rcases receiveServerLine_ext (dec := L.decodeIdleDone) h x with ⟨s1, h1⟩ | h1
    · left; simp only [progressReceive, h1]; exact ⟨_, rfl⟩
    · right
      simp only [progressReceive, feed, h1]
      cases h2 : receiveServerLine L.decodeIdleDone st with
      | error p => rfl
      | ok v =>
        obtain ⟨s1, r⟩ := v
        cases r <;> rfl

theorem progressReceive_sound {L : Lib} {s s1 : Server}
    {r : Except (Interrupt ServerError) (Option ServerEvent)} (h : s.Sound)
    (hn : progressReceive L s = .ok (s1, r)) : s1.Sound := by
  obtain ⟨o, g, ss, rs⟩ := s
  unfold Sound at h
  cases rs with
  | dummy => exact h.elim
  | command st =>
    simp only [progressReceive] at hn
    have key : ∀ (st1 : ReceiveState) mk, st1.seenBytes ≤ st1.maxReadableBytes →
        discardCommand ⟨o, g, ss, .command st⟩ st1 mk = .ok (s1, r) → s1.Sound := by
      intro st1 mk hle hh
      unfold discardCommand at hh
      rw [ReceiveState.discardMessage_eq (Nat.le_trans hle st1.maxReadableBytes_le)] at hh
      simp only [Except.ok.injEq, Prod.mk.injEq] at hh
      rw [← hh.1]; exact ReceiveState.sound_fresh
    split at hn
    · cases hn
    · rename_i st1 cmd heq
      have hst := ReceiveState.next_state h heq
      unfold commandDecoded at hn
      rw [ReceiveState.finishMessage_eq (Nat.le_trans hst.2.2.2.1 st1.maxReadableBytes_le)] at hn
      simp only [ServerReceiveState.changeState] at hn
      split at hn <;>
      · simp only [Except.ok.injEq, Prod.mk.injEq] at hn
        rw [← hn.1]; exact ReceiveState.sound_fresh
    · rename_i st1 io heq
      simp only [Except.ok.injEq, Prod.mk.injEq] at hn
      rw [← hn.1]; exact (ReceiveState.next_state h heq).2.2.2.2 (by simp)
    · rename_i st1 tag len mode heq
      have hst := ReceiveState.next_state h heq
      have hs1 := (hst.2.2.2.2 (by simp)).startLiteral len
      unfold literalFound at hn
      rw [ReceiveState.discardMessage_eq (Nat.le_trans hst.2.2.2.1 st1.maxReadableBytes_le)] at hn
      simp only at hn
      split at hn
      · split at hn
        · split at hn
          · cases hn
          · simp only [Except.ok.injEq, Prod.mk.injEq] at hn
            rw [← hn.1]; exact ReceiveState.sound_fresh
        · simp only [Except.ok.injEq, Prod.mk.injEq] at hn
          rw [← hn.1]; exact ReceiveState.sound_fresh
      · split at hn
        · split at hn
          · cases hn
          · split at hn
            · cases hn
            · simp only [Except.ok.injEq, Prod.mk.injEq] at hn
              rw [← hn.1]; exact hs1
        · simp only [Except.ok.injEq, Prod.mk.injEq] at hn
          rw [← hn.1]; exact hs1
    all_goals
      rename_i heq
      exact key _ _ (ReceiveState.next_state h heq).2.2.2.1 hn
  | authenticateData st =>
    simp only [progressReceive] at hn
    split at hn
    · cases hn
    · rename_i heq
      simp only [Except.ok.injEq, Prod.mk.injEq] at hn
      rw [← hn.1]; exact receiveServerLine_sound h heq
    · rename_i heq
      simp only [Except.ok.injEq, Prod.mk.injEq] at hn
      rw [← hn.1]; exact receiveServerLine_sound h heq
  | idleAccept st =>
    simp only [progressReceive, Except.ok.injEq, Prod.mk.injEq] at hn
    rw [← hn.1]; exact h
  | idleDone st =>
    simp only [progressReceive] at hn
    split at hn
    · cases hn
    · rename_i heq
      simp only [Except.ok.injEq, Prod.mk.injEq] at hn
      rw [← hn.1]; exact receiveServerLine_sound h heq
    · simp only [ServerReceiveState.changeState, Except.ok.injEq, Prod.mk.injEq] at hn
      rw [← hn.1]; exact ReceiveState.sound_fresh

theorem progressReceive_resume {L : Lib} {s s1 : Server} (h : s.Sound)
    (hn : progressReceive L s = .ok (s1, .error (.io .needMoreInput))) :
    s1.sendState = s.sendState ∧ s1.options = s.options ∧ s1.handleGenerator = s.handleGenerator ∧
      ∀ x, progressReceive L (s1.feed x) = progressReceive L (s.feed x) := by
  obtain ⟨o, g, ss, rs⟩ := s
  unfold Sound at h
  cases rs with
  | dummy => exact h.elim
  | idleAccept st =>
    simp only [progressReceive, Except.ok.injEq, Prod.mk.injEq] at hn
    rw [← hn.1]; exact ⟨rfl, rfl, rfl, fun x => rfl⟩
  | command st =>
    simp only [progressReceive] at hn
    have key : ∀ (st1 : ReceiveState) mk,
        discardCommand ⟨o, g, ss, .command st⟩ st1 mk ≠ .ok (s1, .error (.io .needMoreInput)) := by
      intro st1 mk hh
      unfold discardCommand at hh
      split at hh <;> simp at hh
    split at hn
    · cases hn
    · rename_i st1 cmd heq
      unfold commandDecoded at hn
      split at hn
      · cases hn
      · simp only [ServerReceiveState.changeState] at hn
        split at hn <;> simp at hn
    · rename_i st1 io heq
      simp only [Except.ok.injEq, Prod.mk.injEq, Except.error.injEq, Interrupt.io.injEq] at hn
      obtain ⟨rfl, rfl⟩ := hn
      obtain ⟨-, -, h2⟩ := ReceiveState.next_resume h heq
      refine ⟨rfl, rfl, rfl, fun x => ?_⟩
      have e1 : feed ⟨o, g, ss, .command st1⟩ x = ⟨o, g, ss, .command (st1.enqueueInput x)⟩ := rfl
      have e2 : feed ⟨o, g, ss, .command st⟩ x = ⟨o, g, ss, .command (st.enqueueInput x)⟩ := rfl
      rw [e1, e2]
      have hcmd : ∀ a b : ServerReceiveState, ∀ st2 cmd,
          commandDecoded ⟨o, g, ss, a⟩ st2 cmd = commandDecoded ⟨o, g, ss, b⟩ st2 cmd := fun _ _ _ _ => rfl
      have hlit : ∀ a b : ServerReceiveState, ∀ st2 t l m,
          literalFound L ⟨o, g, ss, a⟩ st2 t l m = literalFound L ⟨o, g, ss, b⟩ st2 t l m :=
        fun _ _ _ _ _ _ => rfl
      have hdis : ∀ a b : ServerReceiveState, ∀ st2 mk,
          discardCommand ⟨o, g, ss, a⟩ st2 mk = discardCommand ⟨o, g, ss, b⟩ st2 mk := fun _ _ _ _ => rfl
      simp only [progressReceive, h2 x]
      split
      · rfl
      · exact hcmd _ _ _ _
      · rfl
      · exact hlit _ _ _ _ _ _
      all_goals exact hdis _ _ _ _
    · rename_i st1 tag len mode heq
      unfold literalFound at hn
      simp only at hn
      split at hn
      · split at hn
        · split at hn
          · cases hn
          · split at hn <;> simp at hn
        · split at hn <;> simp at hn
      · split at hn
        · split at hn
          · cases hn
          · split at hn <;> simp at hn
        · simp at hn
    all_goals exact (key _ _ hn).elim
  | authenticateData st =>
    simp only [progressReceive] at hn
    split at hn
    · cases hn
    · rename_i st1 i heq
      simp only [Except.ok.injEq, Prod.mk.injEq, Except.error.injEq] at hn
      obtain ⟨rfl, rfl⟩ := hn
      obtain ⟨-, h2⟩ := receiveServerLine_resume h heq
      refine ⟨rfl, rfl, rfl, fun x => ?_⟩
      simp only [progressReceive, feed, h2]
    · simp at hn
  | idleDone st =>
    simp only [progressReceive] at hn
    split at hn
    · cases hn
    · rename_i st1 i heq
      simp only [Except.ok.injEq, Prod.mk.injEq, Except.error.injEq] at hn
      obtain ⟨rfl, rfl⟩ := hn
      obtain ⟨-, h2⟩ := receiveServerLine_resume h heq
      refine ⟨rfl, rfl, rfl, fun x => ?_⟩
      simp only [progressReceive, feed, h2]
    · simp [ServerReceiveState.changeState] at hn

/-! ## Reception does not depend on the send side -/

/-- Forget the send side. -/
def wipe (s : Server) : Server := { s with sendState := .new, handleGenerator := ⟨0, 0⟩ }

/-- Forget the send side of a result. -/
def wipeRes {α : Type} : Except Panic (Server × α) → Except Panic (Server × α)
  | .error p => .error p
  | .ok (s, r) => .ok (s.wipe, r)

theorem progressReceive_wipe {L : Lib} (s : Server) :
    wipeRes (progressReceive L s) = wipeRes (progressReceive L s.wipe) := by
  obtain ⟨o, g, ss, rs⟩ := s
  cases rs with
  | dummy => rfl
  | idleAccept st => rfl
  | command st =>
    simp only [progressReceive, wipe]
    split
    · rfl
    · rename_i st1 cmd heq
      unfold commandDecoded
      split
      · rfl
      · simp only [ServerReceiveState.changeState]
        split <;> rfl
    · rfl
    · rename_i st1 tag len mode heq
      unfold literalFound
      simp only
      split
      · split
        · split
          · rfl
          · split <;> rfl
        · split <;> rfl
      · split
        · split
          · rfl
          · split <;> rfl
        · rfl
    all_goals
      unfold discardCommand
      split <;> rfl
  | authenticateData st =>
    simp only [progressReceive, wipe]
    split <;> rfl
  | idleDone st =>
    simp only [progressReceive, wipe, ServerReceiveState.changeState]
    split <;> rfl

/-- Reception as a machine fed with input; `ok none` is the silent acceptance of a literal. -/
def feeder (L : Lib) : Feeder Server (Except (Interrupt ServerError) (Option ServerEvent)) where
  feed := feed
  next s := wipeRes (progressReceive L s)
  silent r := r = .error (.io .needMoreInput)

theorem wipe_feed (s : Server) (x : Bytes) : (s.feed x).wipe = s.wipe.feed x := by
  obtain ⟨o, g, ss, rs⟩ := s
  cases rs <;> rfl

theorem wipeRes_ext {α : Type} (x : Bytes) (r : Except Panic (Server × α)) :
    wipeRes (ext x r) = ext x (wipeRes r) := by
  cases r with
  | error p => rfl
  | ok v => obtain ⟨s, a⟩ := v; simp [wipeRes, ext, wipe_feed]

theorem wipeRes_ok {α : Type} {r : Except Panic (Server × α)} {s1 : Server} {a : α}
    (h : wipeRes r = .ok (s1, a)) : ∃ s2, r = .ok (s2, a) ∧ s1 = s2.wipe := by
  cases r with
  | error p => cases h
  | ok v =>
    obtain ⟨s2, b⟩ := v
    simp only [wipeRes, Except.ok.injEq, Prod.mk.injEq] at h
    obtain ⟨rfl, rfl⟩ := h
    exact ⟨s2, rfl, rfl⟩

theorem feeder_chunkable (L : Lib) : (feeder L).Chunkable Sound where
  feed_nil := feed_nil
  feed_append := feed_append
  feed_inv _ x h := h.feed x
  progress s s1 a x h hn ha := by
    obtain ⟨s2, h2, rfl⟩ := wipeRes_ok hn
    refine ⟨progressReceive_sound (s1 := s2) h h2, ?_⟩
    rcases progressReceive_feed (L := L) h x with ⟨s3, h1⟩ | h1
    · rw [h2] at h1
      simp only [Except.ok.injEq, Prod.mk.injEq] at h1
      simp [feeder, h1.2] at ha
    · show wipeRes (progressReceive L (s.feed x)) = _
      rw [h1, wipeRes_ext, h2]
      rfl
  suspend s s1 a h hn ha := by
    obtain ⟨s2, h2, rfl⟩ := wipeRes_ok hn
    have ha' : a = .error (.io .needMoreInput) := by simpa [feeder] using ha
    subst ha'
    refine ⟨progressReceive_sound (s1 := s2) h h2, fun x => ?_⟩
    obtain ⟨-, -, -, h3⟩ := progressReceive_resume h h2
    show wipeRes (progressReceive L (s2.wipe.feed x)) = wipeRes (progressReceive L (s.feed x))
    rw [← wipe_feed, ← progressReceive_wipe, h3]

/-! ## Histories -/

theorem progressSend_sound {L : Lib} {s s1 : Server}
    {r : Except (Interrupt ServerError) (Option ServerEvent)} (h : s.Sound)
    (hn : progressSend L s = (s1, r)) : s1.Sound := by
  have := progressSend_receiveState hn
  unfold Sound at *
  rw [this]; exact h

theorem progressSend_wipe {L : Lib} {s s1 : Server}
    {r : Except (Interrupt ServerError) (Option ServerEvent)}
    (hn : progressSend L s = (s1, r)) : s1.wipe = s.wipe := by
  unfold progressSend at hn
  split at hn <;> (simp only [Prod.mk.injEq] at hn; rw [← hn.1]; rfl)

theorem next_eq (L : Lib) (s : Server) :
    Server.next L s =
      match progressSend L s with
      | (s1, .error i) => .ok (s1, .error i)
      | (s1, .ok (some event)) => .ok (s1, .ok event)
      | (s1, .ok none) =>
        match progressReceive L s1 with
        | .error p => .error p
        | .ok (s2, .error i) => .ok (s2, .error i)
        | .ok (s2, .ok (some event)) => .ok (s2, .ok event)
        | .ok (s2, .ok none) => Server.next L s2 := by
  rw [Server.next]
  split
  · rename_i heq; rw [heq]
  · rename_i heq; rw [heq]
  · rename_i heq
    rw [heq]
    simp only
    split
    all_goals rename_i heq; rw [heq]

theorem next_sound {L : Lib} {s s1 : Server} {r : Except (Interrupt ServerError) ServerEvent}
    (h : s.Sound) (hn : Server.next L s = .ok (s1, r)) : s1.Sound := by
  fun_induction Server.next L s with
  | case1 c c2 i heq =>
    simp only [Except.ok.injEq, Prod.mk.injEq] at hn
    rw [← hn.1]; exact progressSend_sound h heq
  | case2 c c2 i heq =>
    simp only [Except.ok.injEq, Prod.mk.injEq] at hn
    rw [← hn.1]; exact progressSend_sound h heq
  | case3 => cases hn
  | case4 c c2 hs c3 i hr =>
    simp only [Except.ok.injEq, Prod.mk.injEq] at hn
    rw [← hn.1]; exact progressReceive_sound (progressSend_sound h hs) hr
  | case5 c c2 hs c3 i hr =>
    simp only [Except.ok.injEq, Prod.mk.injEq] at hn
    rw [← hn.1]; exact progressReceive_sound (progressSend_sound h hs) hr
  | case6 c c2 hs c3 hr ih => exact ih (progressReceive_sound (progressSend_sound h hs) hr) hn

theorem changeState_sound {rs rs' : ServerReceiveState} {e : NextExpectedMessage} {s : Server}
    (h : { s with receiveState := rs }.Sound) (hc : rs.changeState e = .ok rs') :
    { s with receiveState := rs' }.Sound := by
  unfold ServerReceiveState.changeState at hc
  split at hc <;> split at hc <;>
    (cases hc <;> first | exact ReceiveState.sound_fresh | exact h)

theorem call_sound {L : Lib} {s s1 : Server} {op : ServerOp} {obs : ServerObs} (h : s.Sound)
    (hc : s.call L op = .ok (s1, obs)) : s1.Sound := by
  cases op with
  | enqueueInput b =>
    simp only [call, enqueueInput_eq h, Except.map, Except.ok.injEq, Prod.mk.injEq] at hc
    rw [← hc.1]; exact h.feed b
  | next =>
    simp only [call] at hc
    cases h1 : Server.next L s with
    | error p => rw [h1] at hc; cases hc
    | ok v =>
      obtain ⟨c2, r⟩ := v
      rw [h1] at hc
      simp only [Except.map, Except.ok.injEq, Prod.mk.injEq] at hc
      rw [← hc.1]; exact next_sound h h1
  | enqueueData | enqueueStatus | enqueueContinuationRequest =>
    simp only [call, Except.ok.injEq, Prod.mk.injEq] at hc
    rw [← hc.1]; exact h
  | authenticateContinue r =>
    simp only [call, authenticateContinue, Except.ok.injEq, Prod.mk.injEq] at hc
    rw [← hc.1]
    split <;> exact h
  | authenticateFinish st =>
    simp only [call, authenticateFinish, enqueueStatus, enqueueResponse] at hc
    split at hc
    · rename_i hrs
      split at hc
      · cases hc
      · rename_i heq
        simp only [Except.map, Except.ok.injEq, Prod.mk.injEq] at hc
        rw [← hc.1]; exact changeState_sound (s := s) h heq
    · simp only [Except.map, Except.ok.injEq, Prod.mk.injEq] at hc
      rw [← hc.1]; exact h
  | idleAccept st =>
    simp only [call, idleAccept, enqueueContinuationRequest, enqueueResponse] at hc
    split at hc
    · rename_i hrs
      split at hc
      · cases hc
      · rename_i heq
        simp only [Except.map, Except.ok.injEq, Prod.mk.injEq] at hc
        rw [← hc.1]; exact changeState_sound (s := s) h heq
    · simp only [Except.map, Except.ok.injEq, Prod.mk.injEq] at hc
      rw [← hc.1]; exact h
  | idleReject st =>
    simp only [call, idleReject, enqueueStatus, enqueueResponse] at hc
    split at hc
    · rename_i hrs
      split at hc
      · cases hc
      · rename_i heq
        simp only [Except.map, Except.ok.injEq, Prod.mk.injEq] at hc
        rw [← hc.1]; exact changeState_sound (s := s) h heq
    · simp only [Except.map, Except.ok.injEq, Prod.mk.injEq] at hc
      rw [← hc.1]; exact h

theorem new_sound (g : HandleGenerator) (o : ServerOptions) (gr : Greeting) :
    (Server.new g o gr).Sound := ReceiveState.sound_fresh

theorem run_sound {L : Lib} {ops : List ServerOp} {s s1 : Server} {h : List ServerObs} (hs : s.Sound)
    (hr : s.run L ops = .ok (s1, h)) : s1.Sound := by
  induction ops generalizing s h with
  | nil =>
    simp only [run, Except.ok.injEq, Prod.mk.injEq] at hr
    rw [← hr.1]; exact hs
  | cons op ops ih =>
    simp only [run] at hr
    split at hr
    · cases hr
    · rename_i c2 obs hc
      split at hr
      · cases hr
      · rename_i c3 h3 hr3
        simp only [Except.ok.injEq, Prod.mk.injEq] at hr
        obtain ⟨rfl, -⟩ := hr
        exact ih (call_sound hs hc) hr3

theorem Reachable.sound {L : Lib} {s : Server} (h : s.Reachable L) : s.Sound := by
  obtain ⟨g, o, gr, ops, hist, -, hr⟩ := h
  exact run_sound (new_sound g o gr) hr

/-- What is visible of a reception step. -/
def rxVisible : Except (Interrupt ServerError) (Option ServerEvent) → Option (Except ServerError ServerEvent)
  | .ok (some event) => some (.ok event)
  | .ok none => none
  | .error (.error e) => some (.error e)
  | .error (.io _) => none

/-- What is visible of a result of `next`. -/
def nextVisible : Except (Interrupt ServerError) ServerEvent → Option (Except ServerError ServerEvent)
  | .ok event => if event.isReception then some (.ok event) else none
  | .error (.error e) => some (.error e)
  | .error (.io _) => none

theorem progressReceive_event {L : Lib} {s s1 : Server} {e : ServerEvent}
    (h : progressReceive L s = .ok (s1, .ok (some e))) : e.isReception = true := by
  obtain ⟨o, g, ss, rs⟩ := s
  cases rs with
  | dummy => cases h
  | idleAccept st => simp [progressReceive] at h
  | command st =>
    simp only [progressReceive] at h
    split at h
    · cases h
    · unfold commandDecoded at h
      split at h
      · cases h
      · simp only [ServerReceiveState.changeState] at h
        split at h <;>
        · simp only [Except.ok.injEq, Prod.mk.injEq, Option.some.injEq] at h
          rw [← h.2]; rfl
    · simp at h
    · unfold literalFound at h
      simp only at h
      split at h
      · split at h
        · split at h
          · cases h
          · split at h <;> simp at h
        · split at h <;> simp at h
      · split at h
        · split at h
          · cases h
          · split at h <;> simp at h
        · simp at h
    all_goals
      unfold discardCommand at h
      split at h <;> simp at h
  | authenticateData st =>
    simp only [progressReceive] at h
    split at h
    · cases h
    · simp at h
    · simp only [Except.ok.injEq, Prod.mk.injEq, Option.some.injEq] at h
      rw [← h.2]; rfl
  | idleDone st =>
    simp only [progressReceive, ServerReceiveState.changeState] at h
    split at h
    · cases h
    · simp at h
    · simp only [Except.ok.injEq, Prod.mk.injEq, Option.some.injEq] at h
      rw [← h.2]; rfl

theorem progressSend_invisible {L : Lib} {s s1 : Server}
    {r : Except (Interrupt ServerError) (Option ServerEvent)} (h : progressSend L s = (s1, r)) :
    (∃ b, r = .error (.io (.output b))) ∨ r = .ok none ∨ ∃ e, r = .ok (some e) ∧ e.isReception = false := by
  unfold progressSend at h
  split at h
  · simp only [Prod.mk.injEq] at h; rw [← h.2]; exact .inr (.inr ⟨_, rfl, rfl⟩)
  · simp only [Prod.mk.injEq] at h; rw [← h.2]; exact .inr (.inr ⟨_, rfl, rfl⟩)
  · simp only [Prod.mk.injEq] at h; rw [← h.2]; exact .inr (.inl rfl)
  · simp only [Prod.mk.injEq] at h; rw [← h.2]; exact .inr (.inl rfl)
  · rename_i heq
    simp only [Prod.mk.injEq] at h
    rw [← h.2]
    unfold ServerSendState.next at heq
    split at heq
    · simp at heq
    · split at heq
      · simp at heq
      · simp only [Prod.mk.injEq, Except.error.injEq, Interrupt.io.injEq] at heq
        rw [← heq.2]; exact .inl ⟨_, rfl⟩

/-- One call of `next` is some steps of reception. -/
theorem next_feeder {L : Lib} {s s1 s' : Server} {r : Except (Interrupt ServerError) ServerEvent}
    {t : Bytes} {h : List (Except (Interrupt ServerError) (Option ServerEvent))}
    (hn : Server.next L s = .ok (s1, r)) (hr : (feeder L).Run s1.wipe t h s') :
    ∃ h', (feeder L).Run s.wipe t (h' ++ h) s' ∧ h'.filterMap rxVisible = (nextVisible r).toList := by
  fun_induction Server.next L s with
  | case1 c c2 i heq =>
    simp only [Except.ok.injEq, Prod.mk.injEq] at hn
    obtain ⟨rfl, rfl⟩ := hn
    refine ⟨[], by rw [← progressSend_wipe heq]; exact hr, ?_⟩
    rcases progressSend_invisible heq with ⟨b, h1⟩ | h1 | ⟨e, h1, -⟩
    · cases h1; rfl
    · cases h1
    · cases h1
  | case2 c c2 e heq =>
    simp only [Except.ok.injEq, Prod.mk.injEq] at hn
    obtain ⟨rfl, rfl⟩ := hn
    refine ⟨[], by rw [← progressSend_wipe heq]; exact hr, ?_⟩
    rcases progressSend_invisible heq with ⟨b, h1⟩ | h1 | ⟨e, h1, h2⟩
    · cases h1
    · cases h1
    · cases h1; simp [nextVisible, h2]
  | case3 => cases hn
  | case4 c c2 hs c3 i hre =>
    simp only [Except.ok.injEq, Prod.mk.injEq] at hn
    obtain ⟨rfl, rfl⟩ := hn
    have hw : (feeder L).next c.wipe = .ok (c3.wipe, .error i) := by
      show wipeRes _ = _
      rw [← progressSend_wipe hs, ← progressReceive_wipe, hre]; rfl
    by_cases hi : i = .io .needMoreInput
    · subst hi
      exact ⟨[], .silent hw (by simp [feeder]) hr, rfl⟩
    · refine ⟨[.error i], .report hw (by simp [feeder, hi]) hr, ?_⟩
      cases i <;> rfl
  | case5 c c2 hs c3 e hre =>
    simp only [Except.ok.injEq, Prod.mk.injEq] at hn
    obtain ⟨rfl, rfl⟩ := hn
    have hw : (feeder L).next c.wipe = .ok (c3.wipe, .ok (some e)) := by
      show wipeRes _ = _
      rw [← progressSend_wipe hs, ← progressReceive_wipe, hre]; rfl
    exact ⟨[.ok (some e)], .report hw (by simp [feeder]) hr, by
      simp [nextVisible, progressReceive_event hre, rxVisible]⟩
  | case6 c c2 hs c3 hre ih =>
    obtain ⟨h', h1, h2⟩ := ih hn
    have hw : (feeder L).next c.wipe = .ok (c3.wipe, .ok none) := by
      show wipeRes _ = _
      rw [← progressSend_wipe hs, ← progressReceive_wipe, hre]; rfl
    exact ⟨.ok none :: h', .report hw (by simp [feeder]) h1, by
      rw [List.filterMap_cons]; exact h2⟩

theorem serverReceived_next (r : Except (Interrupt ServerError) ServerEvent) (h : List ServerObs) :
    serverReceived (.next r :: h) = (nextVisible r).toList ++ serverReceived h := by
  rcases r with (io | e) | e
  · simp [serverReceived, nextVisible]
  · simp [serverReceived, nextVisible]
  · simp only [serverReceived, nextVisible]
    split <;> simp

theorem run_feeder {L : Lib} {ops : List ServerOp} {s s1 : Server} {h : List ServerObs} (hs : s.Sound)
    (hf : ReceptionOnly ops) (hr : s.run L ops = .ok (s1, h)) :
    ∃ h', (feeder L).Run s.wipe (serverInput h) h' s1.wipe ∧ h'.filterMap rxVisible = serverReceived h := by
  induction ops generalizing s h with
  | nil =>
    simp only [run, Except.ok.injEq, Prod.mk.injEq] at hr
    obtain ⟨rfl, rfl⟩ := hr
    exact ⟨[], .done, rfl⟩
  | cons op ops ih =>
    simp only [run] at hr
    split at hr
    · cases hr
    · rename_i c2 obs hc
      split at hr
      · cases hr
      · rename_i c3 h3 hr3
        simp only [Except.ok.injEq, Prod.mk.injEq] at hr
        obtain ⟨rfl, rfl⟩ := hr
        obtain ⟨h', ih1, ih2⟩ := ih (call_sound hs hc) (fun o ho => hf o (List.mem_cons_of_mem _ ho)) hr3
        rcases hf op (List.mem_cons_self ..) with rfl | ⟨b, rfl⟩ | ⟨d, rfl⟩ | ⟨d, rfl⟩ | ⟨d, rfl⟩
        · simp only [call] at hc
          cases h1 : Server.next L s with
          | error p => rw [h1] at hc; cases hc
          | ok v =>
            obtain ⟨c4, r⟩ := v
            rw [h1] at hc
            simp only [Except.map, Except.ok.injEq, Prod.mk.injEq] at hc
            obtain ⟨rfl, rfl⟩ := hc
            obtain ⟨h'', h4, h5⟩ := next_feeder h1 ih1
            exact ⟨_, h4, by rw [List.filterMap_append, h5, ih2, serverReceived_next]⟩
        · simp only [call, enqueueInput_eq hs, Except.map, Except.ok.injEq, Prod.mk.injEq] at hc
          obtain ⟨rfl, rfl⟩ := hc
          rw [wipe_feed] at ih1
          exact ⟨h', .feed ih1, ih2⟩
        all_goals
          simp only [call, Except.ok.injEq, Prod.mk.injEq] at hc
          obtain ⟨rfl, rfl⟩ := hc
          exact ⟨h', ih1, ih2⟩

/-- After `next` asked for more input, reception asks again. -/
theorem next_drained {L : Lib} {s s1 : Server} (hs : s.Sound)
    (hn : Server.next L s = .ok (s1, .error (.io .needMoreInput))) :
    ∃ s2, (feeder L).next s1.wipe = .ok (s2, .error (.io .needMoreInput)) := by
  fun_induction Server.next L s with
  | case1 c c2 i heq =>
    simp only [Except.ok.injEq, Prod.mk.injEq, Except.error.injEq] at hn
    obtain ⟨rfl, rfl⟩ := hn
    rcases progressSend_invisible heq with ⟨b, h1⟩ | h1 | ⟨e, h1, -⟩ <;> cases h1
  | case2 => simp at hn
  | case3 => cases hn
  | case4 c c2 hs' c3 i hre =>
    simp only [Except.ok.injEq, Prod.mk.injEq, Except.error.injEq] at hn
    obtain ⟨rfl, rfl⟩ := hn
    obtain ⟨-, -, -, h3⟩ := progressReceive_resume (progressSend_sound hs hs') hre
    have h4 := h3 []
    rw [feed_nil, feed_nil, hre] at h4
    exact ⟨c3.wipe, by show wipeRes _ = _; rw [← progressReceive_wipe, h4]; rfl⟩
  | case5 => simp at hn
  | case6 c c2 hs' c3 hre ih => exact ih (progressReceive_sound (progressSend_sound hs hs') hre) hn

theorem run_append {L : Lib} {ops1 ops2 : List ServerOp} {s s1 s2 : Server} {h1 h2 : List ServerObs}
    (hr1 : s.run L ops1 = .ok (s1, h1)) (hr2 : s1.run L ops2 = .ok (s2, h2)) :
    s.run L (ops1 ++ ops2) = .ok (s2, h1 ++ h2) := by
  induction ops1 generalizing s h1 with
  | nil =>
    simp only [run, Except.ok.injEq, Prod.mk.injEq] at hr1
    obtain ⟨rfl, rfl⟩ := hr1
    exact hr2
  | cons op ops ih =>
    simp only [run] at hr1
    split at hr1
    · cases hr1
    · rename_i c2 obs hc
      split at hr1
      · cases hr1
      · rename_i c3 h3 hr3
        simp only [Except.ok.injEq, Prod.mk.injEq] at hr1
        obtain ⟨rfl, rfl⟩ := hr1
        simp only [List.cons_append, run, hc, ih hr3]

end Server

theorem serverInput_append (h1 h2 : List ServerObs) :
    serverInput (h1 ++ h2) = serverInput h1 ++ serverInput h2 := by
  induction h1 with
  | nil => rfl
  | cons o h ih => cases o <;> simp [serverInput, ih]

theorem serverReceived_append (h1 h2 : List ServerObs) :
    serverReceived (h1 ++ h2) = serverReceived h1 ++ serverReceived h2 := by
  induction h1 with
  | nil => rfl
  | cons o h ih =>
    cases o with
    | next r =>
      rw [List.cons_append, Server.serverReceived_next, Server.serverReceived_next, ih, List.append_assoc]
    | _ => simp [serverReceived, ih]

end ImapFlow

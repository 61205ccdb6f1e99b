import Verif.Proofs.ServerReads
import Verif.Proofs.ServerSafe
import Verif.Spec.ServerSamples

/-!
# C22: an oversized literal is rejected and the server resynchronizes at the following byte
-/

namespace ImapFlow

/-- What the server generates for a rejected literal. -/
def LiteralRejection (tag : Tag) (text : Text) : LiteralMode → List ServerMessage
  | .sync => [.response none (.status (.tagged tag { kind := .bad, code := none, text := text }))]
  | .nonSync => []

theorem rejectReply_eq {L : Lib} {o : ServerOptions} (hO : o.Usable L) : ∃ text,
    o.literalRejectCcr = .basic none text ∧ ∀ tag mode, rejectReply o tag mode = LiteralRejection tag text mode := by
  obtain ⟨-, text, h1, h2⟩ := hO
  refine ⟨text, h1, fun tag mode => ?_⟩
  cases mode with
  | nonSync => rfl
  | sync => simp [rejectReply, LiteralRejection, ServerOptions.literalRejectText, h1]

/-- `LiteralTooLong` is reported exactly for a command prefix whose last line announces a literal above
the limit, with the right answer; the following byte is the next unread byte, read as a command. -/
theorem C22_literal_too_long {L : Lib} {g : HandleGenerator} {o : ServerOptions} (hO : ServerOptions.Built L o)
    {gr : Greeting} {ops : List ServerOp} {s : Server} {T1 T2 : List SItem} {w : Bytes}
    {rs : List ServerMessage}
    (h : (Server.new g o gr).trace L ops = .ok (s, T1 ++ .failed (.literalTooLong w) rs :: T2)) :
    serverPhase T1 = .command ∧
    (∃ text tag k mode, o.literalRejectCcr = .basic none text ∧
      IsUndecodable (commandFraming L o) w (.literalFound tag k mode) ∧
      o.maxLiteralSize < k ∧ rs = LiteralRejection tag text mode) ∧
    w ++ serverUnread (T1 ++ [.failed (.literalTooLong w) rs]) = serverUnread T1 ∧
    serverPhase (T1 ++ [.failed (.literalTooLong w) rs]) = .command := by
  obtain ⟨text, ht, hr⟩ := rejectReply_eq hO.usable
  obtain ⟨s1, hinv⟩ := Server.prefix_inv h
  have h' : (Server.new g o gr).trace L ops = .ok (s, (T1 ++ [.failed (.literalTooLong w) rs]) ++ T2) := by
    simpa using h
  obtain ⟨s2, hinv2⟩ := Server.prefix_inv h'
  obtain ⟨-, -, hd, -⟩ := Server.trace_guard h
  rw [ServerView.of_phase] at hd
  have hph : serverPhase T1 = .command := by
    generalize serverPhase T1 = ph at hd
    cases ph with
    | command => rfl
    | authenticate => exact hd.2.elim
    | idlePending => exact hd.elim
    | idle => exact hd.2.elim
  rw [hph] at hd
  obtain ⟨-, tag, k, mode, h1, h2, h3⟩ := hd
  refine ⟨hph, ⟨text, tag, k, mode, ht, h1, h2, by rw [h3, hr]⟩, ?_, ?_⟩
  · have e1 := Server.given_eq hinv
    have e2 := Server.given_eq hinv2
    rw [serverGiven_append, serverTaken_append] at e2
    simp only [serverGiven, serverTaken, List.flatMap_cons, List.flatMap_nil, List.append_nil, SItem.given,
      SItem.taken, ServerError.bytes] at e1 e2
    rw [e1, List.append_assoc] at e2
    exact (List.append_cancel_left e2).symm
  · rw [serverPhase_snoc, hph]; rfl

/-- Conversely, if the unread input starts with a command prefix that announces a literal above the
limit, this is what is reported. -/
theorem C22_rejects {L : Lib} {g : HandleGenerator} {o : ServerOptions} (hO : ServerOptions.Built L o)
    {gr : Greeting} {ops : List ServerOp} {s : Server} {T1 T2 : List SItem} {i : SItem} {w : Bytes}
    {tag : Tag} {k : Nat} {mode : LiteralMode}
    (h : (Server.new g o gr).trace L ops = .ok (s, T1 ++ i :: T2)) (hp : serverPhase T1 = .command)
    (hw : w <+: serverUnread T1) (hm : w.length ≤ o.maxCommandSize)
    (hu : IsUndecodable (commandFraming L o) w (.literalFound tag k mode)) (hi : i.reads = true) :
    ∃ text, o.literalRejectCcr = .basic none text ∧
      i = .failed (.literalTooLong w) (LiteralRejection tag text mode) := by
  obtain ⟨text, ht, hr⟩ := rejectReply_eq hO.usable
  refine ⟨text, ht, ?_⟩
  obtain ⟨h1, h2⟩ := Server.reads_unit h hw (by rw [hp]; exact hu.complete) hm hi
  have hg := Server.trace_guard h
  have hph : (ServerView.of gr T1).phase = .command := by rw [ServerView.of_phase, hp]
  have hdec : L.decodeCommand w = .error (.literalFound tag k mode) := by
    obtain ⟨p, l, -, -, -, -, hd, -⟩ := hu; exact hd
  cases i with
  | received w' e =>
    obtain ⟨-, -, -, ht', -⟩ := hg
    rw [hph] at ht'
    obtain ⟨c, hc, -⟩ := ht'
    rw [show w' = w from h1] at hc
    exact (hc.not_undecodable hu).elim
  | failed e rs =>
    obtain ⟨-, -, hd, -⟩ := hg
    rw [hph] at hd
    cases e with
    | expectedCrlfGotLf w' =>
      have := hd.2.1
      rw [show w' = w from h1] at this
      exact (this.not_undecodable hu).elim
    | malformedMessage w' =>
      obtain ⟨-, -, x, ⟨p, l, -, -, -, -, hx, -⟩, hn⟩ := hd
      rw [show w' = w from h1] at hx
      have hx' : L.decodeCommand w = .error x := hx
      rw [hdec] at hx'
      cases hx'
      exact (hn _ _ _ rfl).elim
    | commandTooLong w' => exact (h2 w' rs rfl).elim
    | literalTooLong w' =>
      obtain ⟨-, tag', k', mode', ⟨p, l, -, -, -, -, hx, -⟩, -, hrs⟩ := hd
      have hww : w' = w := h1
      subst hww
      have hx' : L.decodeCommand w' = .error (.literalFound tag' k' mode') := hx
      rw [hdec] at hx'
      cases hx'
      rw [hrs, hr]
  | _ => cases hi

/-- A synchronizing literal of 5 bytes with a limit of 4, followed by another command. -/
example : ∃ T1 T2 : List SItem, ServerSample.commandTrace =
      T1 ++ .failed (.literalTooLong (ClientSample.ln "D{xxxxx"))
        (LiteralRejection (ClientSample.str "D") (ClientSample.str "no") .sync) :: T2 ∧
    T2[2]? = some (.received (ClientSample.ln "E Cnew")
      (.commandReceived ⟨ClientSample.str "E", .other (ClientSample.str "new")⟩)) :=
  ⟨ServerSample.commandTrace.take 27, ServerSample.commandTrace.drop 28, by decide +kernel, by decide +kernel⟩

end ImapFlow

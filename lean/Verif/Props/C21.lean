import Verif.Proofs.ServerReads
import Verif.Proofs.ServerSafe
import Verif.Spec.ServerSamples

/-!
# C21: the server answers every acceptable synchronizing literal with exactly one continuation
-/

namespace ImapFlow

/-- What the server generates for an accepted literal. -/
def LiteralAnswer (o : ServerOptions) : LiteralMode → List ServerMessage
  | .sync => [.response none (.continuationRequest o.literalAcceptCcr)]
  | .nonSync => []

theorem acceptReply_eq {L : Lib} {o : ServerOptions} (hO : o.Usable L) (mode : LiteralMode) :
    acceptReply L o mode = LiteralAnswer o mode := by
  obtain ⟨⟨text, h1, h2⟩, -⟩ := hO
  cases mode with
  | nonSync => rfl
  | sync => simp [acceptReply, LiteralAnswer, ServerOptions.literalAcceptText, h1, Lib.ccrBasicFromText, h2]

/-- Each time the server accepts a literal, the unread input starts with a command prefix whose last
line announces a literal of acceptable length, and exactly the right answer is enqueued. -/
theorem C21_server_literal {L : Lib} {g : HandleGenerator} {o : ServerOptions} (hO : ServerOptions.Built L o)
    {gr : Greeting} {ops : List ServerOp} {s : Server} {T1 T2 : List SItem} {p : Bytes}
    {rs : List ServerMessage} (h : (Server.new g o gr).trace L ops = .ok (s, T1 ++ .literal p rs :: T2)) :
    serverPhase T1 = .command ∧ p <+: serverUnread T1 ∧ p.length ≤ o.maxCommandSize ∧
    ∃ tag k mode, Announces (commandFraming L o) p k ∧ L.decodeCommand p = .error (.literalFound tag k mode) ∧
      k ≤ o.maxLiteralSize ∧ rs = LiteralAnswer o mode := by
  obtain ⟨s1, hinv⟩ := Server.prefix_inv h
  obtain ⟨-, ⟨rest, h1⟩, h2, h3, -, tag, k, mode, h4, h5, h6⟩ := Server.trace_guard h
  rw [ServerView.of_phase] at h3
  refine ⟨h3, ⟨rest, Server.of_given hinv h1⟩, h2, tag, k, mode, h4, h5, ?_, ?_⟩
  · obtain ⟨p0, l, e, rfl, -, -, -, h7, h8⟩ := h4
    have h7' : L.decodeCommand (p0 ++ l) = .error e := h7
    rw [h7'] at h5
    cases h5
    have h8' : (if k ≤ o.maxLiteralSize then some k else none) = some k := h8
    by_cases hk : k ≤ o.maxLiteralSize
    · exact hk
    · rw [if_neg hk] at h8'; cases h8'
  · rw [h6, acceptReply_eq hO.usable]

/-- When a command is reported (or discarded), the literals accepted for it are exactly the
announcements in its bytes, in order and each once. -/
theorem C21_server_literals_of_command {L : Lib} {g : HandleGenerator} {o : ServerOptions}
    {gr : Greeting} {ops : List ServerOp} {s : Server} {T1 T2 : List SItem} {i : SItem}
    (h : (Server.new g o gr).trace L ops = .ok (s, T1 ++ i :: T2)) (hi : i.reads = true)
    (hp : serverPhase T1 = .command) :
    AllAnnouncements (commandFraming L o) i.taken (serverLiterals T1) := by
  have hg := Server.trace_guard h
  have hl := Server.of_literals h
  have hph : (ServerView.of gr T1).phase = .command := by rw [ServerView.of_phase, hp]
  rw [← hl]
  cases i with
  | received w e => exact hg.2.2.2.2 hph
  | failed e rs => exact hg.2.2.2 hph
  | _ => cases hi

/-- When the server asks for more input, the literals accepted so far are exactly the announcements in
the unread input: no announcement is left unanswered. -/
theorem C21_server_literals_when_starved {L : Lib} {g : HandleGenerator} {o : ServerOptions}
    {gr : Greeting} {ops : List ServerOp} {s : Server} {T1 T2 : List SItem}
    (h : (Server.new g o gr).trace L ops = .ok (s, T1 ++ .starved :: T2)) (hp : serverPhase T1 = .command) :
    AllAnnouncements (commandFraming L o) (serverUnread T1) (serverLiterals T1) := by
  have hg := Server.trace_guard h
  rw [← Server.of_literals h, ← ServerView.of_unread gr]
  exact hg.2.2 (by rw [ServerView.of_phase, hp])

/-- Outside commands no literal is accepted. -/
theorem C21_server_no_literal_elsewhere {L : Lib} {g : HandleGenerator} {o : ServerOptions}
    {gr : Greeting} {ops : List ServerOp} {s : Server} {T1 T2 : List SItem}
    (h : (Server.new g o gr).trace L ops = .ok (s, T1 ++ T2)) (hp : serverPhase T1 ≠ .command) :
    serverLiterals T1 = [] := by
  obtain ⟨s1, hinv⟩ := Server.prefix_inv h
  rw [← Server.of_literals h]
  exact hinv.literals_nil (by rw [ServerView.of_phase]; exact hp)

/-- A command with two synchronizing literals, followed by one with a non-synchronizing literal. -/
example : serverLiterals (ServerSample.commandTrace.take 17) =
      [ClientSample.ln "A{xx", ClientSample.str "A{xx\r\n\n\n {x\r\n"] ∧
    ServerSample.commandTrace[3]? = some (.literal (ClientSample.ln "A{xx") (LiteralAnswer ServerSample.options .sync)) ∧
    ServerSample.commandTrace[18]? = some (.literal (ClientSample.ln "B{+xx") (LiteralAnswer ServerSample.options .nonSync)) := by
  decide +kernel

end ImapFlow

import Verif.Spec.Dialogue
import Verif.Proofs.NetSettled

/-!
# Dialogues: the state of the client
-/

namespace ImapFlow

variable {L : Lib}

/-- The possible states of a client. -/
inductive Now (L : Lib) (v : ClientView) : Prop
  | fresh : v.Fresh → Now L v
  | regular (h : RawHandle) (cmd : Command) (q : List (RawHandle × Command)) (pre post : List Fragment) :
      v.remaining = (h, cmd) :: q → v.sent ≠ [] → cmd.isRegular = true → v.asked = 0 → v.datas = [] →
      v.accepted = false → v.doneSet = false → L.encodeCommand cmd = pre ++ post → v.sent = wire pre →
      ((post = [] ∧ v.released = syncs pre) ∨
        ∃ d post', post = .literal d .sync :: post' ∧ (v.released = syncs pre ∨ v.released = syncs pre + 1)) → Now L v
  | authenticate (h : RawHandle) (cmd : Command) (q : List (RawHandle × Command)) (ds : List AuthenticateData) :
      v.remaining = (h, cmd) :: q → v.sent ≠ [] → cmd.isAuthenticate = true → v.released = 0 →
      v.accepted = false → v.doneSet = false → v.sent = wire (L.encodeCommand cmd) ++ wireDatas L ds →
      ((v.datas = ds ∧ (v.asked = v.datas.length ∨ v.asked = v.datas.length + 1)) ∨
        ∃ d, v.datas = ds ++ [d] ∧ v.asked = v.datas.length) → Now L v
  | idle (h : RawHandle) (cmd : Command) (q : List (RawHandle × Command)) :
      v.remaining = (h, cmd) :: q → v.sent ≠ [] → cmd.isIdle = true → v.released = 0 → v.asked = 0 → v.datas = [] →
      (v.doneSet = true → v.accepted = true) →
      (v.sent = wire (L.encodeCommand cmd) ∨
        (v.sent = wire (L.encodeCommand cmd) ++ wire L.encodeIdleDone ∧ v.doneSet = true)) → Now L v

theorem SendOk.now {v : ClientView} {s : ClientSendState} (h : SendOk L v s) : Now L v := by
  obtain ⟨-, h⟩ := h
  split at h
  · exact .fresh h.1
  · rename_i cur _
    obtain ⟨hc, hs, hr⟩ := h
    cases cur with
    | command st =>
      obtain ⟨h1, -, h3, h4, h5, h6, h7⟩ := hc
      split at h7
      · exact absurd h7.1 hs
      · obtain ⟨pre, e1, e2, e3⟩ := h7
        exact .regular _ _ _ pre _ hr hs h1 h3 h4 h5 h6 e1 e2 (.inr ⟨_, _, rfl, .inr e3⟩)
      · exact .regular _ _ _ _ [] hr hs h1 h3 h4 h5 h6 (List.append_nil _).symm h7.1 (.inl ⟨rfl, h7.2⟩)
      · obtain ⟨pre, e1, e2, e3⟩ := h7
        exact .regular _ _ _ pre _ hr hs h1 h3 h4 h5 h6 e1 e2 (.inr ⟨_, _, rfl, .inl e3⟩)
      · obtain ⟨pre, e1, e2, e3⟩ := h7
        exact .regular _ _ _ pre _ hr hs h1 h3 h4 h5 h6 e1 e2 (.inr ⟨_, _, rfl, .inl e3⟩)
    | authenticate st =>
      obtain ⟨h1, h2, h3, h4⟩ := hc
      have ha : st.commandAuthenticate.toCommand.isAuthenticate = true := rfl
      simp only at h4
      split at h4
      · exact absurd h4.1 hs
      · obtain ⟨-, e1, e2, e3⟩ := h4
        refine .authenticate _ _ _ [] hr hs ha h1 h2 h3 (by rw [e1]; simp [wireDatas]) (.inl ⟨e2, .inl (by rw [e2, e3]; rfl)⟩)
      · obtain ⟨-, e1, e2⟩ := h4
        exact .authenticate _ _ _ _ hr hs ha h1 h2 h3 e1 (.inl ⟨rfl, .inl e2⟩)
      · obtain ⟨-, e1, e2⟩ := h4
        exact .authenticate _ _ _ _ hr hs ha h1 h2 h3 e1 (.inl ⟨rfl, .inr e2⟩)
      · obtain ⟨-, ds, d, e1, -, e3, e4⟩ := h4
        exact .authenticate _ _ _ ds hr hs ha h1 h2 h3 e3 (.inr ⟨d, e1, e4⟩)
      · obtain ⟨-, e1, e2⟩ := h4
        exact .authenticate _ _ _ _ hr hs ha h1 h2 h3 e1 (.inl ⟨rfl, .inl e2⟩)
    | idle st =>
      obtain ⟨h1, h2, h3, h4⟩ := hc
      have ha : (⟨st.tag, .idle⟩ : Command).isIdle = true := rfl
      simp only at h4
      split at h4
      · exact absurd h4.1 hs
      · obtain ⟨-, e1, e2, e3⟩ := h4
        exact .idle _ _ _ hr hs ha h1 h2 h3 (by simp [e3]) (.inl e1)
      · obtain ⟨-, e1, e2, e3⟩ := h4
        exact .idle _ _ _ hr hs ha h1 h2 h3 (by simp [e3]) (.inl e1)
      · obtain ⟨-, e1, e2, e3⟩ := h4
        exact .idle _ _ _ hr hs ha h1 h2 h3 (by simp [e3]) (.inl e1)
      · obtain ⟨-, e1, e2, e3, -⟩ := h4
        exact .idle _ _ _ hr hs ha h1 h2 h3 (fun _ => e2) (.inl e1)
      · obtain ⟨-, e1, e2, e3⟩ := h4
        exact .idle _ _ _ hr hs ha h1 h2 h3 (fun _ => e2) (.inr ⟨e1, e3⟩)

theorem Client.now {g : HandleGenerator} {o : ClientOptions} {ops : List ClientOp} {c : Client} {T1 T2 : List CItem}
    (hL : L.Lawful) (h : (Client.new g o).trace L ops = .ok (c, T1 ++ T2)) : Now L (ClientView.of T1) := by
  obtain ⟨c1, hinv⟩ := Client.trace_prefix_inv hL h
  exact SendOk.now hinv.1

/-! ## The bytes of what is said -/

/-- The bytes of a message of the client. -/
def ServerEvent.bytes (L : Lib) : ServerEvent → Bytes
  | .commandReceived c => wire (L.encodeCommand c)
  | .commandAuthenticateReceived ca => wire (L.encodeCommand ca.toCommand)
  | .authenticateDataReceived d => wire (L.encodeAuthenticateData d)
  | .idleCommandReceived tag => wire (L.encodeCommand ⟨tag, .idle⟩)
  | .idleDoneReceived => wire L.encodeIdleDone
  | _ => []

/-- The bytes of several messages. -/
def said (L : Lib) (es : List ServerEvent) : Bytes := es.flatMap (ServerEvent.bytes L)

theorem said_append (a b : List ServerEvent) : said L (a ++ b) = said L a ++ said L b := by simp [said]

theorem said_cons (a : ServerEvent) (b : List ServerEvent) : said L (a :: b) = a.bytes L ++ said L b := by simp [said]

theorem said_datas (ds : List AuthenticateData) : said L (ds.map .authenticateDataReceived) = wireDatas L ds := by
  simp only [said, List.flatMap_map]; rfl

theorem Command.event_bytes (c : Command) : c.event.bytes L = wire (L.encodeCommand c) := by
  obtain ⟨tag, body⟩ := c
  cases body <;> rfl

/-- The command in progress was said completely. -/
theorem Now.output {v : ClientView} (h : Now L v) (hs : v.sent ≠ []) :
    ∃ x q, v.remaining = x :: q ∧ v.current = some x ∧ v.sent <+: said L (v.saidNow x) := by
  cases h with
  | fresh h => exact absurd h.1 hs
  | regular h cmd q pre post h1 h2 h3 h4 h5 h6 h7 h8 h9 h10 =>
    refine ⟨_, _, h1, by simp [ClientView.current, h2, h1], ?_⟩
    rw [ClientView.saidNow, h5, h7, h9]
    simp only [List.map_nil, List.cons_append, List.nil_append, Bool.false_eq_true, if_false, said_cons,
      Command.event_bytes, h8, wire_append]
    rw [List.append_assoc]
    exact List.prefix_append ..
  | authenticate h cmd q ds h1 h2 h3 h4 h5 h6 h7 h8 =>
    refine ⟨_, _, h1, by simp [ClientView.current, h2, h1], ?_⟩
    rw [ClientView.saidNow, h6, h7]
    simp only [Bool.false_eq_true, if_false, List.append_nil, said_cons, Command.event_bytes, said_datas]
    rcases h8 with ⟨h8, -⟩ | ⟨d, h8, -⟩
    · rw [h8]; exact List.prefix_refl _
    · rw [h8, wireDatas_append, ← List.append_assoc]; exact List.prefix_append ..
  | idle h cmd q h1 h2 h3 h4 h5 h6 h7 h8 =>
    refine ⟨_, _, h1, by simp [ClientView.current, h2, h1], ?_⟩
    rw [ClientView.saidNow, h6]
    rcases h8 with h8 | ⟨h8, h9⟩
    · rw [h8]
      simp only [List.map_nil, List.cons_append, List.nil_append, said_cons, Command.event_bytes]
      exact List.prefix_append ..
    · rw [h8, h9]
      simp only [List.map_nil, List.cons_append, List.nil_append, said_cons, Command.event_bytes, if_true]
      simp [said, ServerEvent.bytes]

end ImapFlow

import Verif.Spec.Proxy
import Verif.Spec.StreamSamples

/-!
# Concrete runs of the proxy

Conversations of the proxy with the toy codec, used beside the theorems.
-/

namespace ImapFlow

theorem Toy.proxyable : Toy.lib.Proxyable where
  accept := by decide
  reject := by decide
  rejected := by decide
  continuation _ _ _ _ _ := rfl

namespace ProxySample

open ClientSample (str ln g)

/-- The handle generator of the proxy's server. -/
def gs : HandleGenerator := { generatorId := 9, nextHandleId := 0 }

/-- A run of the proxy. -/
def run (as : List ProxyAct) : Option (Proxy Nat × List ProxyItem) :=
  (Proxy.start none none g).run Toy.lib gs as

/-- The client is greeted; the capabilities of the server's greeting are restricted. -/
def greet : List ProxyAct :=
  [.server .poll, .server (.read (ln "G[CRSQ]hi")), .server .poll, .client .poll, .client (.write 3),
   .client (.write 6)]

/-- A command with a literal that the proxy accepts and the server rejects with an alert, while capabilities
arrive. -/
def literal : List ProxyAct :=
  [.client .poll, .client (.read (ln "A{xx")), .client (.write 35), .client (.read (str "\n\n")),
   .client (.read (ln "")), .server .poll, .server (.write 6), .client .poll,
   .server (.read (ln "CRSIQP" ++ ln "bA [A]too long")), .client .poll, .client (.write 6), .server .poll,
   .client .poll, .client (.write 16)]

/-- AUTHENTICATE with one round of data. -/
def authenticate : List ProxyAct :=
  [.client .poll, .client (.read (ln "B A")), .server .poll, .server (.write 5), .server .poll,
   .server (.read (ln "+go")), .client .poll, .client (.write 5), .client .poll, .client (.read (ln "Dpw")),
   .server .poll, .server (.write 5), .server (.read (ln "oB [CRS]done")), .client .poll, .client (.write 14)]

/-- IDLE with a status in between. -/
def idle : List ProxyAct :=
  [.client .poll, .client (.read (ln "E I")), .server .poll, .server (.write 5), .server .poll,
   .server (.read (ln "+idling")), .client .poll, .client (.write 9), .server .poll, .server (.read (ln "u[CS]x")),
   .client .poll, .client (.write 8), .client .poll, .client (.read (ln "D")), .server .poll, .server (.write 3),
   .server .poll, .server (.read (ln "oE done")), .client .poll]

/-- A conversation in which everything goes well. -/
def talk : List ProxyAct := greet ++ literal ++ authenticate ++ idle

/-- The client sends the authenticate data together with AUTHENTICATE. -/
def early : List ProxyAct := greet ++ [.client .poll, .client (.read (ln "A A" ++ ln "Dpw")), .client .poll]

/-- The server accepts an IDLE and ends it. -/
def broken : List ProxyAct :=
  greet ++ [.client .poll, .client (.read (ln "E I")), .server .poll, .server (.write 5), .server .poll,
    .server (.read (ln "+idling" ++ ln "oE done")), .server .poll]

/-- The server sends a response and closes the connection. -/
def closed : List ProxyAct :=
  greet ++ [.client .poll, .server .poll, .server (.read (ln "*d")), .client .poll, .server .poll, .server (.read [])]

/-- Two ordinary commands, the second one half written, and capabilities. -/
def plain : List ProxyAct :=
  greet ++ [.client .poll, .client (.read (ln "A Cz" ++ ln "B Cy")), .client .poll, .server .poll, .server (.write 6),
    .server .poll, .server (.write 2), .server (.read (ln "CRSI" ++ ln "oA done")), .server .poll,
    .client .poll, .client (.write 5)]

/-- The server sends two responses while the client announces two literals. -/
def stuck : List ProxyAct :=
  greet ++ [.client .poll, .client (.read (ln "A{x" ++ str "y" ++ ln "{x")), .server .poll,
    .server (.read (ln "*d" ++ ln "*e")), .client .poll, .server .poll, .client .poll, .client .poll,
    .client (.write 74), .server .poll]

/-- Two ordinary commands and a response are passed on; the proxy waits. -/
def settled : List ProxyAct :=
  greet ++ [.client .poll, .client (.read (ln "A Cz" ++ ln "B Cy")), .client .poll, .server .poll, .server (.write 6),
    .server .poll, .server (.write 6), .server .poll, .server (.read (ln "oA done")), .client .poll,
    .client (.write 9), .client .poll, .server .poll]

/-- The proxy waits for input on both connections. -/
def waits : Proxy Nat → Bool
  | .conversation c s => c.ctl = .at .reading && s.ctl = .at .reading
  | _ => false

theorem waits_elim {p : Proxy Nat} (h : waits p = true) :
    ∃ c s, p = .conversation c s ∧ c.ctl = .at .reading ∧ s.ctl = .at .reading := by
  cases p with
  | conversation c s =>
    simp only [waits, Bool.and_eq_true, decide_eq_true_eq] at h
    exact ⟨c, s, rfl, h⟩
  | _ => cases h

/-- How the conversation stands. -/
inductive Stage where
  | greeting
  | conversation
  | over
  | hung
  | dead
  deriving DecidableEq

/-- How the conversation stands. -/
def stage : Proxy Nat → Stage
  | .greeting .. => .greeting
  | .conversation .. => .conversation
  | .over => .over
  | .hung => .hung
  | .dead => .dead

theorem stage_over {p : Proxy Nat} (h : stage p = .over) : p = .over := by
  cases p <;> first | rfl | cases h

theorem stage_hung {p : Proxy Nat} (h : stage p = .hung) : p = .hung := by
  cases p <;> first | rfl | cases h

theorem stage_dead {p : Proxy Nat} (h : stage p = .dead) : p = .dead := by
  cases p <;> first | rfl | cases h

theorem of_map {α β : Type} {x : Option α} {f : α → β} {b : β} (h : x.map f = some b) : ∃ a, x = some a ∧ f a = b := by
  cases x with
  | none => cases h
  | some a => exact ⟨a, rfl, by simpa using h⟩

/-- The responses enqueued for the client. -/
def talkResponses : List Response :=
  [.data (.capability ⟨.imap4Rev1, [.idle, .auth .plain]⟩),
   .status (.tagged (str "A") ⟨.bad, some .alert, str "too long"⟩),
   .continuationRequest (.basic none (str "go")),
   .status (.tagged (str "B") ⟨.ok, some (.capability ⟨.imap4Rev1, [.startTls]⟩), str "done"⟩),
   .continuationRequest (.basic none (str "idling")),
   .status (.untagged ⟨.ok, some (.capability ⟨.imap4Rev1, []⟩), str "x"⟩),
   .status (.tagged (str "E") ⟨.ok, none, str "done"⟩)]

/-- The commands enqueued for the server. -/
def talkCommands : List Command :=
  [⟨str "A", .other (str "\n\n")⟩, ⟨str "B", .authenticate .plain none⟩, ⟨str "E", .idle⟩]

theorem run_talk : ∃ p T, run talk = some (p, T) ∧ p ≠ .dead ∧ forwardedResponses T = talkResponses ∧
    forwardedCommands T = talkCommands ∧ streamWrote (clientSide T) =
      ln "G[CR]hi" ++ ln "+proxy: Literal accepted by proxy" ++ ln "CRIP" ++ ln "bA [A]too long" ++ ln "+go" ++
      ln "oB [CRS]done" ++ ln "+idling" ++ ln "u[CR]x" ∧
    streamWrote (serverSide T) = ln "A{xx" ++ ln "B A" ++ ln "Dpw" ++ ln "E I" ++ ln "D" := by
  have h : (run talk).map (fun x => (stage x.1, forwardedResponses x.2, forwardedCommands x.2,
      streamWrote (clientSide x.2), streamWrote (serverSide x.2))) = some (.conversation, talkResponses, talkCommands,
      ln "G[CR]hi" ++ ln "+proxy: Literal accepted by proxy" ++ ln "CRIP" ++ ln "bA [A]too long" ++ ln "+go" ++
      ln "oB [CRS]done" ++ ln "+idling" ++ ln "u[CR]x", ln "A{xx" ++ ln "B A" ++ ln "Dpw" ++ ln "E I" ++ ln "D") := by
    decide +kernel
  obtain ⟨⟨p, T⟩, h1, h2⟩ := of_map h
  simp only [Prod.mk.injEq] at h2
  exact ⟨p, T, h1, (by rintro rfl; cases h2.1), h2.2⟩

theorem run_early : ∃ T, run early = some (.dead, T) ∧ forwardedCommands T = [⟨str "A", .authenticate .plain none⟩] := by
  have h : (run early).map (fun x => (stage x.1, forwardedCommands x.2)) =
    some (.dead, [⟨str "A", .authenticate .plain none⟩]) := by decide +kernel
  obtain ⟨⟨p, T⟩, h1, h2⟩ := of_map h
  simp only [Prod.mk.injEq] at h2
  obtain ⟨h3, h2⟩ := h2
  obtain rfl := stage_dead h3
  exact ⟨T, h1, h2⟩

theorem run_broken : ∃ T, run broken = some (.dead, T) ∧ forwardedCommands T = [⟨str "E", .idle⟩] ∧
    forwardedResponses T = [.continuationRequest (.basic none (str "idling"))] := by
  have h : (run broken).map (fun x => (stage x.1, forwardedCommands x.2, forwardedResponses x.2)) =
    some (.dead, [⟨str "E", .idle⟩], [.continuationRequest (.basic none (str "idling"))]) := by decide +kernel
  obtain ⟨⟨p, T⟩, h1, h2⟩ := of_map h
  simp only [Prod.mk.injEq] at h2
  obtain ⟨h3, h2⟩ := h2
  obtain rfl := stage_dead h3
  exact ⟨T, h1, h2⟩

theorem run_closed : ∃ T, run closed = some (.over, T) ∧ forwardedResponses T = [.data (.other (str "d"))] ∧
    streamWrote (clientSide T) = ln "G[CR]hi" := by
  have h : (run closed).map (fun x => (stage x.1, forwardedResponses x.2, streamWrote (clientSide x.2))) =
    some (.over, [.data (.other (str "d"))], ln "G[CR]hi") := by decide +kernel
  obtain ⟨⟨p, T⟩, h1, h2⟩ := of_map h
  simp only [Prod.mk.injEq] at h2
  obtain ⟨h3, h2⟩ := h2
  obtain rfl := stage_over h3
  exact ⟨T, h1, h2⟩

theorem run_plain : ∃ p T, run plain = some (p, T) ∧
    receivedCommands T = [⟨str "A", .other (str "z")⟩, ⟨str "B", .other (str "y")⟩] ∧
    (∀ hd cmd st, .commandRejected hd cmd st ∉ streamEvents (serverSide T)) ∧
    forwardedResponses T = [.data (.capability ⟨.imap4Rev1, [.idle]⟩)] ∧
    streamWrote (serverSide T) = ln "A Cz" ++ str "B " := by
  have h : (run plain).map (fun x => (receivedCommands x.2, (streamEvents (serverSide x.2)).all (fun e =>
      match e with | .commandRejected .. => false | _ => true), forwardedResponses x.2, streamWrote (serverSide x.2))) =
    some ([⟨str "A", .other (str "z")⟩, ⟨str "B", .other (str "y")⟩], true,
      [.data (.capability ⟨.imap4Rev1, [.idle]⟩)], ln "A Cz" ++ str "B ") := by decide +kernel
  obtain ⟨⟨p, T⟩, h1, h2⟩ := of_map h
  simp only [Prod.mk.injEq] at h2
  obtain ⟨h2, h3, h4, h5⟩ := h2
  exact ⟨p, T, h1, h2, fun hd cmd st hm => Bool.noConfusion (List.all_eq_true.mp h3 _ hm), h4, h5⟩

theorem run_stuck : ∃ c s T, run stuck = some (.conversation c s, T) ∧ c.ctl = .at .reading ∧ s.ctl = .at .reading ∧
    forwardedResponses T = [.data (.other (str "d")), .data (.other (str "e"))] ∧
    streamWrote (clientSide T) = ln "G[CR]hi" ++ ln "+proxy: Literal accepted by proxy" ++ ln "*d" ++
      ln "+proxy: Literal accepted by proxy" := by
  have h : (run stuck).map (fun x => (waits x.1, forwardedResponses x.2, streamWrote (clientSide x.2))) =
    some (true, [.data (.other (str "d")), .data (.other (str "e"))], ln "G[CR]hi" ++
      ln "+proxy: Literal accepted by proxy" ++ ln "*d" ++ ln "+proxy: Literal accepted by proxy") := by decide +kernel
  obtain ⟨⟨p, T⟩, h1, h2⟩ := of_map h
  simp only [Prod.mk.injEq] at h2
  obtain ⟨c, s, rfl, h3, h4⟩ := waits_elim h2.1
  exact ⟨c, s, T, h1, h3, h4, h2.2⟩

theorem run_settled : ∃ c s T, run settled = some (.conversation c s, T) ∧ c.ctl = .at .reading ∧ s.ctl = .at .reading ∧
    receivedCommands T = [⟨str "A", .other (str "z")⟩, ⟨str "B", .other (str "y")⟩] ∧
    (∀ hd cmd st, .commandRejected hd cmd st ∉ streamEvents (serverSide T)) ∧
    streamWrote (serverSide T) = ln "A Cz" ++ ln "B Cy" ∧ streamWrote (clientSide T) = ln "G[CR]hi" ++ ln "oA done" := by
  have h : (run settled).map (fun x => (waits x.1, receivedCommands x.2, (streamEvents (serverSide x.2)).all (fun e =>
      match e with | .commandRejected .. => false | _ => true), streamWrote (serverSide x.2),
      streamWrote (clientSide x.2))) =
    some (true, [⟨str "A", .other (str "z")⟩, ⟨str "B", .other (str "y")⟩], true, ln "A Cz" ++ ln "B Cy",
      ln "G[CR]hi" ++ ln "oA done") := by decide +kernel
  obtain ⟨⟨p, T⟩, h1, h2⟩ := of_map h
  simp only [Prod.mk.injEq] at h2
  obtain ⟨h2, h3, h4, h5, h6⟩ := h2
  obtain ⟨c, s, rfl, h7, h8⟩ := waits_elim h2
  exact ⟨c, s, T, h1, h7, h8, h3, fun hd cmd st hm => Bool.noConfusion (List.all_eq_true.mp h4 _ hm), h5, h6⟩

end ProxySample

end ImapFlow

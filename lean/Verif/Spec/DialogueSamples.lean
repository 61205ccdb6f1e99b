import Verif.Spec.Dialogue
import Verif.Spec.StreamNetSamples

/-!
# Concrete dialogues between a client and a server
-/

namespace ImapFlow.DialogueSample

open ClientSample (str ln g)
open ServerSample (options greeting)
open NetSample (start cmdA cmdC of_check of_starves starves line_message)

def authB : Command := ⟨str "B", .authenticate .plain none⟩
def idleI : Command := ⟨str "I", .idle⟩
def idleJ : Command := ⟨str "J", .idle⟩

/-- Both sides run until nothing moves. -/
def settle (k : Nat) : List NetOp :=
  (List.replicate k [.client .next, .deliverToServer 3, .deliverToServer 100, .server .next, .deliverToClient 2,
    .deliverToClient 100]).flatten

/-- A command with two literals, then AUTHENTICATE. -/
def ops1 : List NetOp :=
  [.client (.enqueueCommand cmdA), .client (.enqueueCommand authB), .server (.enqueueData (.other (str "d")))] ++ settle 16
/-- The user of the server asks for data, and completes the first command. -/
def ops2 : List NetOp := ops1 ++ [.server (.authenticateContinue (.basic none (str "go"))),
  .server (.enqueueStatus (.tagged (str "A") ⟨.bad, none, str "late"⟩))] ++ settle 6
/-- The user of the client sends data, and enqueues more commands. -/
def ops3 : List NetOp := ops2 ++ [.client (.setAuthenticateData (.continue (str "pw"))),
  .client (.enqueueCommand idleI), .client (.enqueueCommand idleJ), .client (.enqueueCommand cmdC)] ++ settle 6
/-- The user of the server finishes AUTHENTICATE. -/
def ops4 : List NetOp := ops3 ++ [.server (.authenticateFinish (.tagged (str "B") ⟨.ok, none, str "done"⟩))] ++ settle 8
/-- The user of the server accepts IDLE. -/
def ops5 : List NetOp := ops4 ++ [.server (.idleAccept (.basic none (str "idling"))),
  .server (.enqueueData (.other (str "d")))] ++ settle 6
/-- The user of the client ends IDLE; another IDLE follows. -/
def ops6 : List NetOp := ops5 ++ [.client .setIdleDone] ++ settle 8
/-- The user of the server rejects IDLE; a command follows. -/
def ops7 : List NetOp := ops6 ++ [.server (.idleReject (.tagged (str "J") ⟨.no, none, str "busy"⟩))] ++ settle 8

/-- The user of the server follows the protocol, checked from left to right. -/
def orderly : ServerDialogue → List SItem → Bool
  | _, [] => true
  | d, i :: S => allows d i && orderly (d.observe i) S
where
  allows (d : ServerDialogue) : SItem → Bool
  | .enqueue _ (.continuationRequest _) => false
  | .enqueue _ (.status (.tagged tag _)) => d.completed.contains tag
  | .authContinue _ (.ok _) => d.asked == 0
  | .authFinish st (.ok _) => d.asked == 0 && tagged d st
  | .idleReject st (.ok _) => tagged d st
  | _ => true
  tagged (d : ServerDialogue) : Status → Bool
  | .tagged tag _ => d.running == some tag
  | _ => false

theorem of_tagged {d : ServerDialogue} {st : Status} (h : orderly.tagged d st = true) :
    ∃ tag body, d.running = some tag ∧ st = .tagged tag body := by
  unfold orderly.tagged at h
  split at h
  · rename_i tag body
    exact ⟨tag, body, beq_iff_eq.mp h, rfl⟩
  · cases h

theorem of_allows {d : ServerDialogue} {i : SItem} (h : orderly.allows d i = true) : d.Allows i := by
  unfold orderly.allows at h
  unfold ServerDialogue.Allows
  split at h
  · cases h
  · simpa using h
  · simpa using h
  · simp only [Bool.and_eq_true, beq_iff_eq] at h
    exact ⟨h.1, of_tagged h.2⟩
  · exact of_tagged h
  · split <;> first | trivial | (rename_i h1 h2 h3 h4 h5 _ _; simp_all)

theorem of_orderly {S : List SItem} (h : orderly { running := none, asked := 0, completed := [] } S = true) :
    OrderlyServer S := by
  have key : ∀ (S1 : List SItem) (d : ServerDialogue) (i : SItem) (S2 : List SItem),
      orderly d (S1 ++ i :: S2) = true → (S1.foldl ServerDialogue.observe d).Allows i := by
    intro S1
    induction S1 with
    | nil =>
      intro d i S2 h
      rw [List.nil_append, orderly, Bool.and_eq_true] at h
      exact of_allows h.1
    | cons j S1 ih =>
      intro d i S2 h
      rw [List.cons_append, orderly, Bool.and_eq_true] at h
      exact ih _ i S2 h.2
  intro S1 i S2 hS
  subst hS
  exact key S1 _ i S2 h

/-- All responses of the server in these runs. -/
def contents : List Incoming :=
  [.greeting greeting, .response (.continuationRequest (.basic none (str "ok"))), .response (.data (.other (str "d"))),
   .response (.continuationRequest (.basic none (str "go"))),
   .response (.status (.tagged (str "A") ⟨.bad, none, str "late"⟩)),
   .response (.status (.tagged (str "B") ⟨.ok, none, str "done"⟩)),
   .response (.continuationRequest (.basic none (str "idling"))),
   .response (.status (.tagged (str "J") ⟨.no, none, str "busy"⟩))]

/-- All commands of these runs. -/
def commands : List Command := [cmdA, authB, idleI, idleJ, cmdC]

/-- All authenticate data of these runs. -/
def datas : List AuthenticateData := [.continue (str "pw"), .continue (str " Cz")]

/-- The messages of the run are those above. -/
def Fair (T : List NItem) : Prop :=
  (∀ m ∈ serverMessages greeting (serverItems T), m.content ∈ contents) ∧
  (∀ x ∈ clientEnqueued (clientItems T), x.2 ∈ commands) ∧
  ((clientEnqueued (clientItems T)).map fun x => x.2.tag).Nodup ∧
  ∀ d ∈ (clientItems T).filterMap CItem.data?, d ∈ datas

instance : DecidablePred Fair := fun _ => by unfold Fair; infer_instance

theorem messages_fair {T : List NItem} (h : Fair T) :
    ∀ m ∈ serverMessages greeting (serverItems T), m.RoundTrip Toy.lib .default := by
  have key : ∀ (b : Bytes) (r : Response), Toy.lib.decodeResponse (b ++ [CR, LF]) = .ok ([], r) → LF ∉ b →
      wire (Toy.lib.encodeResponse r) = b ++ [CR, LF] →
      IsMessage (responseFraming Toy.lib false) (wire (Toy.lib.encodeResponse r)) r := by
    intro b r h1 h2 h3
    rw [h3]
    refine line_message ?_ h2
    simp only [responseFraming, h1]
  have ok := key (str "+ok") (.continuationRequest (.basic none (str "ok"))) (by decide +kernel) (by decide +kernel) (by decide +kernel)
  have d := key (str "*d") (.data (.other (str "d"))) (by decide +kernel) (by decide +kernel) (by decide +kernel)
  have go := key (str "+go") (.continuationRequest (.basic none (str "go"))) (by decide +kernel) (by decide +kernel) (by decide +kernel)
  have late := key (str "bA late") (.status (.tagged (str "A") ⟨.bad, none, str "late"⟩)) (by decide +kernel) (by decide +kernel)
    (by decide +kernel)
  have done := key (str "oB done") (.status (.tagged (str "B") ⟨.ok, none, str "done"⟩)) (by decide +kernel) (by decide +kernel)
    (by decide +kernel)
  have idling := key (str "+idling") (.continuationRequest (.basic none (str "idling"))) (by decide +kernel) (by decide +kernel)
    (by decide +kernel)
  have busy := key (str "nJ busy") (.status (.tagged (str "J") ⟨.no, none, str "busy"⟩)) (by decide +kernel) (by decide +kernel)
    (by decide +kernel)
  intro m hm
  have := h.1 m hm
  cases m with
  | greeting gr =>
    simp only [ServerMessage.content, contents, List.mem_cons, Incoming.greeting.injEq, List.not_mem_nil, reduceCtorEq,
      or_false] at this
    subst this
    exact StreamNetSample.greeting_message
  | response hd r =>
    simp only [ServerMessage.content, contents, List.mem_cons, Incoming.response.injEq, List.not_mem_nil, reduceCtorEq,
      or_false, false_or] at this
    rcases this with rfl | rfl | rfl | rfl | rfl | rfl | rfl
    · exact ok
    · exact d
    · exact go
    · exact late
    · exact done
    · exact idling
    · exact busy

theorem line_command {b : Bytes} {c : Command} (h : Toy.lib.decodeCommand (b ++ [CR, LF]) = .ok ([], c)) (hb : LF ∉ b)
    (he : Toy.lib.encodeCommand c = [.line (b ++ [CR, LF])]) (hl : (b ++ [CR, LF]).length ≤ options.maxCommandSize) :
    c.RoundTrip Toy.lib options ∧ c.Fits Toy.lib options := by
  unfold Command.RoundTrip Command.Fits
  rw [he]
  refine ⟨.last ⟨b ++ [CR], by simp, ?_⟩ (.inr ⟨b, rfl⟩) h, by simpa [wire, Fragment.data] using hl, by simp⟩
  simp only [List.mem_append, List.mem_singleton, not_or]
  exact ⟨hb, by decide⟩

theorem client_fair {T : List NItem} (h : Fair T) : FairClient Toy.lib options (clientItems T) := by
  have key : ∀ c ∈ commands, c.RoundTrip Toy.lib options ∧ c.Fits Toy.lib options := by
    intro c hc
    simp only [commands, List.mem_cons, List.not_mem_nil, or_false] at hc
    rcases hc with rfl | rfl | rfl | rfl | rfl
    · exact (NetSample.commands_ok _ (by simp)).2
    · exact line_command (b := str "B A") (by decide +kernel) (by decide +kernel) (by decide +kernel) (by decide +kernel)
    · exact line_command (b := str "I I") (by decide +kernel) (by decide +kernel) (by decide +kernel) (by decide +kernel)
    · exact line_command (b := str "J I") (by decide +kernel) (by decide +kernel) (by decide +kernel) (by decide +kernel)
    · exact (NetSample.commands_ok _ (by simp)).2
  refine ⟨⟨fun x hx => (key _ (h.2.1 x hx)).1, fun x hx => (key _ (h.2.1 x hx)).2, h.2.2.1⟩, ?_, ?_⟩
  · intro d hd
    have := h.2.2.2 d hd
    simp only [datas, List.mem_cons, List.not_mem_nil, or_false] at this
    rcases this with rfl | rfl
    · exact ⟨line_message (F := authenticateFraming Toy.lib options) (b := str "Dpw") (by decide +kernel) (by decide +kernel),
        by decide +kernel⟩
    · exact ⟨line_message (F := authenticateFraming Toy.lib options) (b := str "D Cz") (by decide +kernel) (by decide +kernel),
        by decide +kernel⟩
  · exact ⟨line_message (F := idleFraming Toy.lib options) (b := str "D") (by decide +kernel) (by decide +kernel),
      by decide +kernel⟩

/-- What the theorems about dialogues ask for, and that nothing moves. -/
def Settled (r : Net × List NItem) : Prop :=
  Fair r.2 ∧ orderly { running := none, asked := 0, completed := [] } (serverItems r.2) = true ∧
  r.1.toServer = [] ∧ r.1.toClient = [] ∧
  starves (r.1.client.next Toy.lib) = true ∧ starves (r.1.server.next Toy.lib) = true

instance : DecidablePred Settled := fun _ => by unfold Settled; infer_instance

theorem Settled.hypotheses {n : Net} {T : List NItem} (h : Settled (n, T)) :
    (∀ m ∈ serverMessages greeting (serverItems T), m.RoundTrip Toy.lib .default) ∧
    FairClient Toy.lib options (clientItems T) ∧ OrderlyServer (serverItems T) ∧ n.Stuck Toy.lib :=
  ⟨messages_fair h.1, client_fair h.1, of_orderly h.2.1, h.2.2.1, h.2.2.2.1, of_starves h.2.2.2.2.1,
    of_starves h.2.2.2.2.2⟩

/-- What was heard and answered in the whole run. -/
def Whole (r : Net × List NItem) : Prop :=
  serverHeard (serverItems r.2) = [.commandReceived cmdA, .commandAuthenticateReceived ⟨str "B", .plain, none⟩,
    .authenticateDataReceived (.continue (str "pw")), .idleCommandReceived (str "I"), .idleDoneReceived,
    .idleCommandReceived (str "J"), .commandReceived cmdC] ∧
  clientAnswers (clientItems r.2) = [.authenticateContinue (.basic none (str "go")),
    .authenticateFinish (.tagged (str "B") ⟨.ok, none, str "done"⟩), .idleAccept (.basic none (str "idling")),
    .idleReject (.tagged (str "J") ⟨.no, none, str "busy"⟩)]

instance : DecidablePred Whole := fun _ => by unfold Whole; infer_instance

theorem whole_run : ∃ n T, start.run Toy.lib ops7 = .ok (n, T) ∧ Settled (n, T) ∧ Whole (n, T) := by
  obtain ⟨⟨n, T⟩, h⟩ := of_check (x := start.run Toy.lib ops7) (P := fun r => Settled r ∧ Whole r) (by decide +kernel)
  exact ⟨n, T, h⟩

/-- The stages of the dialogue. -/
def Stage (p : ServerPhase) (heard answered : Nat) (r : Net × List NItem) : Prop :=
  serverPhase (serverItems r.2) = p ∧ (serverHeard (serverItems r.2)).length = heard ∧
  (clientAnswers (clientItems r.2)).length = answered

instance (p : ServerPhase) (heard answered : Nat) : DecidablePred (Stage p heard answered) := fun _ => by
  unfold Stage; infer_instance

/-- Nothing moves while one of the users is awaited: in all of these stages. -/
theorem stages : ∀ x ∈ [(ops1, ServerPhase.authenticate, 2, 0), (ops2, .authenticate, 2, 1), (ops3, .authenticate, 3, 1),
    (ops4, .idlePending, 4, 2), (ops5, .idle, 4, 3), (ops6, .idlePending, 6, 3), (ops7, .command, 7, 4)],
    ∃ n T, start.run Toy.lib x.1 = .ok (n, T) ∧ Settled (n, T) ∧ Stage x.2.1 x.2.2.1 x.2.2.2 (n, T) := by
  have key : ∀ x : List NetOp × ServerPhase × Nat × Nat,
      ((start.run Toy.lib x.1).map fun r => decide (Settled r ∧ Stage x.2.1 x.2.2.1 x.2.2.2 r)) = .ok true →
      ∃ n T, start.run Toy.lib x.1 = .ok (n, T) ∧ Settled (n, T) ∧ Stage x.2.1 x.2.2.1 x.2.2.2 (n, T) := by
    intro x hx
    obtain ⟨⟨n, T⟩, h⟩ := of_check (P := fun r => Settled r ∧ Stage x.2.1 x.2.2.1 x.2.2.2 r) hx
    exact ⟨n, T, h⟩
  intro x hx
  simp only [List.mem_cons, List.not_mem_nil, or_false] at hx
  rcases hx with rfl | rfl | rfl | rfl | rfl | rfl | rfl <;> exact key _ (by decide +kernel)

/-! ## A server that does not wait for the data it asked for -/

/-- The user of the server asks for data and finishes AUTHENTICATE at once; the user of the client answers the
request. -/
def earlyOps : List NetOp :=
  [.client (.enqueueCommand authB)] ++ settle 6 ++
  [.server (.authenticateContinue (.basic none (str "go"))), .server .next,
   .server (.authenticateFinish (.tagged (str "B") ⟨.ok, none, str "done"⟩)), .deliverToClient 100, .client .next,
   .client (.setAuthenticateData (.continue (str " Cz"))), .client .next, .client .next] ++ settle 6

def Early (r : Net × List NItem) : Prop :=
  Fair r.2 ∧ serverHeard (serverItems r.2) = [.commandAuthenticateReceived ⟨str "B", .plain, none⟩,
    .commandReceived ⟨str "D", .other (str "z")⟩] ∧
  (ClientView.of (clientItems r.2)).said = [.commandAuthenticateReceived ⟨str "B", .plain, none⟩,
    .authenticateDataReceived (.continue (str " Cz"))] ∧
  clientAnswers (clientItems r.2) = serverAnswers (serverItems r.2)

instance : DecidablePred Early := fun _ => by unfold Early; infer_instance

theorem early_run : ∃ n T, start.run Toy.lib earlyOps = .ok (n, T) ∧ Early (n, T) := by
  obtain ⟨⟨n, T⟩, h⟩ := of_check (x := start.run Toy.lib earlyOps) (P := Early) (by decide +kernel)
  exact ⟨n, T, h⟩

end ImapFlow.DialogueSample

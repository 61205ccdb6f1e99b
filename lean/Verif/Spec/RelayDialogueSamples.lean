import Verif.Spec.RelayDialogue
import Verif.Spec.RelaySamples
import Verif.Spec.StreamDialogueSamples

/-!
# Concrete dialogues through the proxy

A command with literals, AUTHENTICATE, an accepted and a rejected IDLE between other commands, and capabilities that the
proxy does not support, with and without TLS: the users act, then call `next` until everything waits, then drop the
pending futures to act again.
-/

namespace ImapFlow.RelayDialogueSample

open ClientSample (str g)
open ServerSample (options)
open NetSample (cmdA cmdC line_message)
open DialogueSample (authB idleI idleJ Fair orderly)
open RelaySample (start plainStart greeting filtered caps fewerCaps proxyOptions proxyWaits)

/-- The next step of a system whose users only call `next`. -/
def pick (r : Relay Nat) : Option RelayAct :=
  if r.client.ctl = .at .idle then some (.client .callNext)
  else if r.server.ctl = .at .idle then some (.server .callNext)
  else if r.client.writeBuffer ≠ [] then some (.client (.write (min 7 r.client.writeBuffer.length)))
  else if r.server.writeBuffer ≠ [] then some (.server (.write (min 9 r.server.writeBuffer.length)))
  else match r.proxy with
    | .greeting _ u =>
      if u.ctl = .at .idle then some (.proxyServer .poll)
      else if r.serverToProxy ≠ [] then some (.proxyServer (.read 5))
      else none
    | .conversation d u =>
      if d.ctl = .at .idle then some (.proxyClient .poll)
      else if u.ctl = .at .idle then some (.proxyServer .poll)
      else if d.writeBuffer ≠ [] then some (.proxyClient (.write (min 9 d.writeBuffer.length)))
      else if u.writeBuffer ≠ [] then some (.proxyServer (.write (min 7 u.writeBuffer.length)))
      else if r.clientToProxy ≠ [] then some (.proxyClient (.read 8))
      else if r.serverToProxy ≠ [] then some (.proxyServer (.read 6))
      else if r.proxyToClient ≠ [] then some (.client (.read 10))
      else if r.proxyToServer ≠ [] then some (.server (.read 7))
      else none
    | _ => none

/-- Up to `k` such steps. -/
def settle : Nat → Relay Nat → List RelayAct
  | 0, _ => []
  | k + 1, r =>
    match pick r with
    | none => []
    | some a =>
      match r.step Toy.lib g a with
      | none => []
      | some (r, _) => a :: settle k r

/-- The users act, then they wait; and so on. -/
def play : Relay Nat → List (List RelayAct) → List RelayAct
  | _, [] => []
  | r, x :: xs =>
    match r.run Toy.lib g x with
    | none => []
    | some (r, _) =>
      let y := settle 500 r
      match r.run Toy.lib g y with
      | none => []
      | some (r, _) => x ++ y ++ play r xs

/-- What the users do. -/
def script : List (List RelayAct) :=
  [[.client (.user (.enqueueCommand cmdA)), .client (.user (.enqueueCommand authB)),
    .server (.user (.enqueueData caps))],
   [.server .drop, .server (.user (.authenticateContinue (.basic none (str "go")))),
    .server (.user (.enqueueStatus (.tagged (str "A") ⟨.bad, none, str "late"⟩)))],
   [.client .drop, .client (.user (.setAuthenticateData (.continue (str "pw")))), .client (.user (.enqueueCommand idleI)),
    .client (.user (.enqueueCommand idleJ)), .client (.user (.enqueueCommand cmdC))],
   [.server .drop, .server (.user (.authenticateFinish (.tagged (str "B") ⟨.ok, none, str "done"⟩)))],
   [.server .drop, .server (.user (.idleAccept (.basic none (str "idling")))),
    .server (.user (.enqueueData (.other (str "d"))))],
   [.client .drop, .client (.user .setIdleDone)],
   [.server .drop, .server (.user (.idleReject (.tagged (str "J") ⟨.no, none, str "busy"⟩)))]]

/-- What the user of the client asked for. -/
def clientTrace (R : List RelayItem) : Except Panic (Client × List CItem) :=
  (Client.new g .default).trace Toy.lib (clientOps (streamPart (relayClient R)))

/-- What the user of the server asked for. -/
def serverTrace (R : List RelayItem) : Except Panic (Server × List SItem) :=
  (Server.new g options greeting).trace Toy.lib (serverOps (streamPart (relayServer R)))

/-- All responses of the user of the server in these runs. -/
def contents : List Response :=
  [.data caps, .data (.other (str "d")), .continuationRequest (.basic none (str "go")),
   .status (.tagged (str "A") ⟨.bad, none, str "late"⟩), .status (.tagged (str "B") ⟨.ok, none, str "done"⟩),
   .continuationRequest (.basic none (str "idling")), .status (.tagged (str "J") ⟨.no, none, str "busy"⟩)]

def fairResponse : ServerMessage → Bool
  | .response (some _) r => decide (r ∈ contents)
  | _ => true

/-- What the theorems about dialogues through the proxy ask for. -/
def Suitable (R : List RelayItem) (c : Except Panic (Client × List CItem)) (s : Except Panic (Server × List SItem)) : Prop :=
  (.client .refused ∉ R ∧ .server .refused ∉ R ∧ .proxy (.clientTls .refused) ∉ R ∧ .proxy (.serverTls .refused) ∉ R) ∧
  (c.map fun x => decide (Fair (x.2.map .client))) = .ok true ∧
  (s.map fun x => orderly { running := none, asked := 0, completed := [] } x.2 &&
    (serverMessages greeting x.2).all fairResponse) = .ok true

instance (R : List RelayItem) (c : Except Panic (Client × List CItem)) (s : Except Panic (Server × List SItem)) :
    Decidable (Suitable R c s) := by
  unfold Suitable; infer_instance

/-- What the users got in the end. -/
def Played (R : List RelayItem) : Prop :=
  (events (streamPart (relayServer R))).filterMap ServerEvent.heard? =
    [.commandReceived cmdA, .commandAuthenticateReceived ⟨str "B", .plain, none⟩,
     .authenticateDataReceived (.continue (str "pw")), .idleCommandReceived (str "I"), .idleDoneReceived,
     .idleCommandReceived (str "J"), .commandReceived cmdC] ∧
  (events (streamPart (relayClient R))).filterMap ClientEvent.answer? = [.authenticateContinue (.basic none (str "go")),
    .authenticateFinish (.tagged (str "B") ⟨.ok, none, str "done"⟩), .idleAccept (.basic none (str "idling")),
    .idleReject (.tagged (str "J") ⟨.no, none, str "busy"⟩)] ∧
  .greetingReceived filtered ∈ events (streamPart (relayClient R)) ∧
  .dataReceived fewerCaps ∈ events (streamPart (relayClient R))

instance : DecidablePred Played := fun _ => by unfold Played; infer_instance

/-- Everything waits. -/
def Still (r : Relay Nat) : Prop :=
  (r.clientToProxy = [] ∧ r.proxyToClient = [] ∧ r.proxyToServer = [] ∧ r.serverToProxy = []) ∧
    r.client.ctl = .at .reading ∧ r.server.ctl = .at .reading ∧ proxyWaits r.proxy = true

instance : DecidablePred Still := fun _ => by unfold Still; infer_instance

theorem Still.waiting {r : Relay Nat} (h : Still r) : r.Waiting := by
  obtain ⟨h1, h2, h3, h4⟩ := h
  refine ⟨h1, h2, h3, ?_⟩
  cases hp : r.proxy with
  | conversation c s =>
    rw [hp] at h4
    exact ⟨c, s, rfl, of_decide_eq_true h4⟩
  | _ => rw [hp] at h4; cases h4

/-- The responses are decoded to themselves. -/
theorem contents_ok : ∀ r ∈ contents, ∀ h, (ServerMessage.response h r).RoundTrip Toy.lib .default ∧
    (ServerMessage.response h r.restrict).RoundTrip Toy.lib .default := by
  have key : ∀ (b : Bytes) (r : Response), Toy.lib.decodeResponse (b ++ [CR, LF]) = .ok ([], r) → LF ∉ b →
      wire (Toy.lib.encodeResponse r) = b ++ [CR, LF] →
      ∀ h, (ServerMessage.response h r).RoundTrip Toy.lib .default := by
    intro b r h1 h2 h3 h
    show IsMessage (responseFraming Toy.lib false) (wire (Toy.lib.encodeResponse r)) r
    rw [h3]
    refine line_message ?_ h2
    simp only [responseFraming, h1]
  intro r hr h
  simp only [contents, List.mem_cons, List.not_mem_nil, or_false] at hr
  rcases hr with rfl | rfl | rfl | rfl | rfl | rfl | rfl
  · exact ⟨key (str "CRIQ") _ (by decide +kernel) (by decide +kernel) (by decide +kernel) h,
      key (str "CRI") _ (by decide +kernel) (by decide +kernel) (by decide +kernel) h⟩
  · exact ⟨key (str "*d") _ (by decide +kernel) (by decide +kernel) (by decide +kernel) h,
      key (str "*d") _ (by decide +kernel) (by decide +kernel) (by decide +kernel) h⟩
  · exact ⟨key (str "+go") _ (by decide +kernel) (by decide +kernel) (by decide +kernel) h,
      key (str "+go") _ (by decide +kernel) (by decide +kernel) (by decide +kernel) h⟩
  · exact ⟨key (str "bA late") _ (by decide +kernel) (by decide +kernel) (by decide +kernel) h,
      key (str "bA late") _ (by decide +kernel) (by decide +kernel) (by decide +kernel) h⟩
  · exact ⟨key (str "oB done") _ (by decide +kernel) (by decide +kernel) (by decide +kernel) h,
      key (str "oB done") _ (by decide +kernel) (by decide +kernel) (by decide +kernel) h⟩
  · exact ⟨key (str "+idling") _ (by decide +kernel) (by decide +kernel) (by decide +kernel) h,
      key (str "+idling") _ (by decide +kernel) (by decide +kernel) (by decide +kernel) h⟩
  · exact ⟨key (str "nJ busy") _ (by decide +kernel) (by decide +kernel) (by decide +kernel) h,
      key (str "nJ busy") _ (by decide +kernel) (by decide +kernel) (by decide +kernel) h⟩

/-- What respects the limits of the server respects those of the proxy. -/
theorem fair_proxy {A : List CItem} (h : FairClient Toy.lib options A) : FairClient Toy.lib proxyOptions A := by
  have limits : options.maxCommandSize ≤ proxyOptions.maxCommandSize ∧
      options.maxLiteralSize ≤ proxyOptions.maxLiteralSize ∧ proxyOptions.crlfRelaxed = options.crlfRelaxed := by
    decide +kernel
  obtain ⟨⟨h1, h2, h3⟩, h4, h5⟩ := h
  refine ⟨⟨fun x hx => ?_, fun x hx => ?_, h3⟩, fun d hd => ?_, ?_⟩
  · have := h1 x hx
    unfold Command.RoundTrip at this ⊢
    rwa [limits.2.2]
  · obtain ⟨a, b⟩ := h2 x hx
    exact ⟨Nat.le_trans a limits.1, fun d m hd => Nat.le_trans (b d m hd) limits.2.1⟩
  · obtain ⟨a, b⟩ := h4 d hd
    refine ⟨?_, Nat.le_trans b limits.1⟩
    unfold authenticateFraming at a ⊢
    rwa [limits.2.2]
  · obtain ⟨a, b⟩ := h5
    refine ⟨?_, Nat.le_trans b limits.1⟩
    unfold idleFraming at a ⊢
    rwa [limits.2.2]

theorem of_map {α : Type} {x : Except Panic α} {f : α → Bool} (h : x.map f = .ok true) : ∃ a, x = .ok a ∧ f a = true := by
  cases x with
  | error p => cases h
  | ok a => exact ⟨a, rfl, by injection h⟩

theorem clientItems_clients' (A : List CItem) : clientItems (A.map .client) = A := by
  induction A with
  | nil => rfl
  | cons i A ih => exact congrArg _ ih

theorem Suitable.hypotheses {R : List RelayItem} (h : Suitable R (clientTrace R) (serverTrace R)) :
    RelayAccepted R ∧ ∃ c A s S, clientTrace R = .ok (c, A) ∧ serverTrace R = .ok (s, S) ∧
      RelayUsers Toy.lib .default .default proxyOptions options greeting A S := by
  obtain ⟨h1, h2, h3⟩ := h
  obtain ⟨⟨c, A⟩, e1, e2⟩ := of_map h2
  obtain ⟨⟨s, S⟩, e3, e4⟩ := of_map h3
  refine ⟨h1, c, A, s, S, e1, e3, ?_⟩
  have hA := DialogueSample.client_fair (of_decide_eq_true e2)
  rw [clientItems_clients'] at hA
  simp only [Bool.and_eq_true] at e4
  refine ⟨fair_proxy hA, hA, DialogueSample.of_orderly e4.1, ?_, ?_, ?_⟩
  · exact ⟨line_message (F := greetingFraming Toy.lib false) (b := str "G[CRSQ]hi") (by decide +kernel) (by decide +kernel),
      line_message (F := greetingFraming Toy.lib false) (b := str "G[CR]hi") (by decide +kernel) (by decide +kernel)⟩
  · intro hd r hm
    have := of_decide_eq_true (List.all_eq_true.1 e4.2 _ hm)
    exact ⟨(contents_ok r this _).1, contents_ok r this _⟩
  · intro mode
    refine ⟨fun m hm => StreamNetSample.accept_message mode m hm, ?_⟩
    intro m hm
    have e : acceptReply Toy.lib proxyOptions .sync =
        [.response none (.continuationRequest (.basic none (str "proxy: Literal accepted by proxy")))] := by decide +kernel
    cases mode with
    | nonSync => cases hm
    | sync =>
      rw [e] at hm
      cases List.mem_singleton.1 hm
      exact line_message (F := responseFraming Toy.lib false) (b := str "+proxy: Literal accepted by proxy")
        (by decide +kernel) (by decide +kernel)

/-- A run with the checks. -/
def Checked (x : Option (Relay Nat × List RelayItem)) (P : List RelayItem → Prop) : Prop :=
  ∃ r R, x = some (r, R) ∧ Still r ∧ Suitable R (clientTrace R) (serverTrace R) ∧ P R

theorem of_checked {x : Option (Relay Nat × List RelayItem)} {P : List RelayItem → Prop} [DecidablePred P]
    (h : (x.map fun r => decide (Still r.1 ∧ Suitable r.2 (clientTrace r.2) (serverTrace r.2) ∧ P r.2)) = some true) :
    Checked x P := by
  cases x with
  | none => cases h
  | some r => exact ⟨r.1, r.2, rfl, of_decide_eq_true (by simpa using h)⟩

/-- The whole dialogue, with TLS. -/
theorem tls_run : Checked (start.run Toy.lib g (play start script)) Played := of_checked (by decide +kernel)

/-- The whole dialogue, without TLS. -/
theorem plain_run : Checked (plainStart.run Toy.lib g (play plainStart script)) Played := of_checked (by decide +kernel)

/-- The stages of the dialogue. -/
def Stage (p : ServerPhase) (heard answered : Nat) (R : List RelayItem) : Prop :=
  ((serverTrace R).map fun x => serverPhase x.2) = .ok p ∧
  ((events (streamPart (relayServer R))).filterMap ServerEvent.heard?).length = heard ∧
  ((events (streamPart (relayClient R))).filterMap ClientEvent.answer?).length = answered

instance (p : ServerPhase) (heard answered : Nat) : DecidablePred (Stage p heard answered) := fun _ => by
  unfold Stage; infer_instance

/-- Everything waits for one of the users: in all of these stages. -/
theorem stages : ∀ x ∈ [(1, ServerPhase.authenticate, 2, 0), (2, .authenticate, 2, 1), (3, .authenticate, 3, 1),
    (4, .idlePending, 4, 2), (5, .idle, 4, 3), (6, .idlePending, 6, 3), (7, .command, 7, 4)],
    Checked (start.run Toy.lib g (play start (script.take x.1))) (Stage x.2.1 x.2.2.1 x.2.2.2) := by
  simp only [List.mem_cons, List.not_mem_nil, or_false, forall_eq_or_imp, forall_eq]
  refine ⟨?_, ?_, ?_, ?_, ?_, ?_, ?_⟩ <;> exact of_checked (by decide +kernel)

end ImapFlow.RelayDialogueSample

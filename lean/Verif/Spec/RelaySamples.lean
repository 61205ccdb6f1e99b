import Verif.Spec.Relay
import Verif.Spec.ProxySamples
import Verif.Spec.StreamNetSamples

/-!
# A concrete run of a client and a server with the proxy between them

Two runs with the record layer `toyLayer` and without TLS: fragmented reads and writes, a dropped `next` on both
sides, a command with literals, one without, capabilities (also in the greeting) that the proxy does not support, and a
status.
-/

namespace ImapFlow.RelaySample

open ClientSample (str g)
open ServerSample (options)
open NetSample (cmdA cmdC)

/-- A connection. -/
def tls (readKey writeKey : Nat) : Tls Nat :=
  { layer := toyLayer, readSize := 5, limit := 64, readKey, raw := [], plain := [], closed := false, writeKey
    sendable := [] }

/-- The greeting of the server. -/
def greeting : Greeting :=
  { kind := .ok, code := some (.capability ⟨.imap4Rev1, [.startTls, .auth .scramSha1Plus]⟩), text := str "hi" }

/-- What the client gets. -/
def filtered : Greeting := { kind := .ok, code := some (.capability ⟨.imap4Rev1, []⟩), text := str "hi" }

/-- With TLS. -/
def start : Relay Nat :=
  .new (some (tls 5 0)) (some (tls 0 5)) (some (tls 7 3)) (some (tls 3 7)) g .default g g options greeting

/-- Without TLS. -/
def plainStart : Relay Nat := .new none none none none g .default g g options greeting

theorem handshaken (a b : Nat) : Handshaken (· = ·) (some (tls a b)) (some (tls b a)) :=
  ⟨⟨rfl, toyLayer_receives, toyLayer_delivers⟩, ⟨⟨rfl, rfl, by simp [tls], rfl⟩, rfl, rfl, rfl⟩,
    ⟨⟨rfl, rfl, by simp [tls], rfl⟩, rfl, rfl, rfl⟩⟩

/-- Data of the server. -/
def caps : Data := .capability ⟨.imap4Rev1, [.idle, .auth .scramSha1Plus]⟩

/-- What the client gets. -/
def fewerCaps : Data := .capability ⟨.imap4Rev1, [.idle]⟩

/-- A status of the server. -/
def done : Status := .tagged (str "A") ⟨.ok, none, str "done"⟩

/-- The environment. -/
def acts : List RelayAct :=
  [.client (.user (.enqueueCommand cmdA)), .client (.user (.enqueueCommand cmdC)),
   .server (.user (.enqueueData caps)), .client .callNext, .proxyServer .poll, .server .callNext,
   .server (.write 15), .proxyServer (.read 20), .server (.write 6), .proxyServer (.read 20), .server (.write 1),
   .proxyServer (.read 6), .proxyClient .poll, .proxyServer .poll, .server .callNext, .proxyClient (.write 15),
   .client (.read 20), .server (.write 11), .proxyServer (.read 20), .proxyClient (.write 3), .client (.read 6),
   .proxyClient .poll, .proxyServer .poll, .client .callNext, .client (.write 8), .proxyClient (.read 20),
   .client (.write 2), .proxyClient (.read 20), .proxyClient (.write 30), .client (.read 6),
   .proxyClient (.write 30), .client (.read 20), .client (.read 6), .client (.read 20), .client (.read 20),
   .proxyClient (.write 8), .client (.read 20), .proxyClient (.write 2), .client (.read 6), .client (.write 11),
   .proxyClient (.read 20), .client (.write 3), .proxyClient (.read 20), .proxyClient (.write 30),
   .proxyClient (.write 30), .client (.read 20), .client (.read 20), .client (.read 6), .client (.read 20),
   .proxyClient (.write 8), .client (.read 6), .client (.read 20), .proxyClient (.write 2), .client (.read 6),
   .client (.write 8), .client .callNext, .proxyClient (.read 6), .proxyClient (.read 20), .proxyClient .poll,
   .proxyServer .poll, .client (.write 11), .proxyClient (.read 20), .proxyServer (.write 8), .server (.read 20),
   .server .callNext, .proxyServer (.write 2), .server (.read 20), .server (.write 11), .proxyServer (.read 6),
   .proxyClient .poll, .proxyServer .poll, .proxyServer (.read 6), .proxyServer (.write 11), .server (.read 20),
   .proxyClient (.write 8), .client (.read 20), .client .callNext, .proxyServer (.write 3), .server (.read 20),
   .server (.write 8), .proxyServer (.read 6), .proxyServer (.read 20), .proxyClient (.write 2), .client (.read 6),
   .client .callNext, .proxyClient .poll, .proxyServer .poll, .server (.write 2), .proxyServer (.read 20),
   .proxyServer (.write 8), .proxyServer .poll, .proxyClient .poll, .server (.read 6), .server (.read 20),
   .server .callNext, .client (.write 1), .proxyClient (.read 20), .proxyClient .poll, .proxyServer .poll,
   .proxyServer (.write 11), .server (.read 20), .proxyServer (.write 1), .proxyClient .poll, .proxyServer .poll,
   .server (.read 6), .server .callNext, .server .drop, .server (.user (.enqueueStatus done)), .client .drop,
   .client .callNext, .server .callNext, .server (.write 15), .proxyServer (.read 20), .server (.write 3),
   .proxyServer (.read 6), .server .callNext, .proxyClient .poll, .proxyServer .poll, .proxyClient (.write 15),
   .client (.read 20), .proxyClient (.write 3), .client (.read 20), .proxyServer .poll, .client .callNext,
   .proxyClient .poll]

/-- The environment without TLS. -/
def plainActs : List RelayAct :=
  [.client (.user (.enqueueCommand cmdA)), .client (.user (.enqueueCommand cmdC)),
   .server (.user (.enqueueData caps)), .client .callNext, .proxyServer .poll, .server .callNext,
   .server (.write 11), .proxyServer (.read 6), .proxyServer (.read 20), .server .callNext, .proxyClient .poll,
   .proxyServer .poll, .proxyClient (.write 8), .client (.read 6), .client (.read 20), .server (.write 6),
   .proxyServer (.read 6), .server .callNext, .proxyClient .poll, .proxyClient .poll, .proxyServer .poll,
   .proxyClient (.write 6), .proxyClient .poll, .proxyServer .poll, .client (.read 20), .client .callNext,
   .client (.write 5), .client .callNext, .proxyClient (.read 6), .proxyClient (.write 30), .client (.read 20),
   .client (.read 6), .client (.read 20), .proxyClient (.write 5), .client (.read 6), .client (.write 6),
   .proxyClient (.read 20), .client (.write 1), .proxyClient (.read 20), .proxyClient (.write 30),
   .client (.read 6), .client (.read 20), .client (.read 20), .proxyClient (.write 5), .client (.read 20),
   .client (.write 4), .client .callNext, .proxyClient (.read 20), .proxyServer .poll, .proxyClient .poll,
   .client (.write 6), .client .callNext, .proxyClient (.read 6), .proxyClient .poll, .proxyServer .poll,
   .proxyServer (.write 5), .server (.read 20), .server (.write 5), .proxyServer (.read 6),
   .proxyServer (.write 6), .server (.read 20), .proxyServer (.write 1), .server (.read 20), .server (.write 5),
   .proxyServer (.read 6), .proxyServer (.write 4), .proxyClient .poll, .proxyServer .poll, .server (.read 20),
   .server .callNext, .proxyServer (.write 6), .proxyClient .poll, .proxyServer .poll, .server (.read 6),
   .server .callNext, .server .drop, .server (.user (.enqueueStatus done)), .client .drop, .client .callNext,
   .server .callNext, .server (.write 8), .proxyServer (.read 20), .server (.write 1), .proxyServer (.read 20),
   .server .callNext, .proxyClient .poll, .proxyServer .poll, .proxyClient (.write 8), .client (.read 6),
   .client (.read 20), .proxyClient (.write 1), .client (.read 6), .client .callNext, .proxyClient .poll,
   .proxyServer .poll]

/-- The proxy waits. -/
def proxyWaits : Proxy Nat → Bool
  | .conversation c s => decide (c.ctl = .at .reading ∧ s.ctl = .at .reading)
  | _ => false

/-- What happens. -/
def Facts (r : Relay Nat × List RelayItem) : Prop :=
  (.client .refused ∉ r.2 ∧ .server .refused ∉ r.2 ∧ .proxy (.clientTls .refused) ∉ r.2 ∧
    .proxy (.serverTls .refused) ∉ r.2) ∧
  ((r.1.clientToProxy = [] ∧ r.1.proxyToClient = [] ∧ r.1.proxyToServer = [] ∧ r.1.serverToProxy = []) ∧
    r.1.client.ctl = .at .reading ∧ r.1.server.ctl = .at .reading ∧ proxyWaits r.1.proxy = true) ∧
  relayedCommands r.2 = [cmdA, cmdC] ∧ relayedResponses r.2 = [.data caps, .status done] ∧
  ((events (streamPart (relayServer r.2))).filterMap ServerEvent.received? = [cmdA, cmdC] ∧
    (events (streamPart (relayClient r.2))).filterMap ClientEvent.told? = [.data fewerCaps, .status done] ∧
    .greetingReceived filtered ∈ events (streamPart (relayClient r.2))) ∧
  (events (streamPart (relayClient r.2))).all (fun e => match e with | .commandRejected .. => false | _ => true) = true ∧
  (streamEvents (serverSide (relayProxy r.2))).all (fun e => match e with | .commandRejected .. => false | _ => true) = true

instance : DecidablePred Facts := fun _ => by unfold Facts; infer_instance

theorem of_facts {x : Option (Relay Nat × List RelayItem)} (h : (x.map fun r => decide (Facts r)) = some true) :
    ∃ r R, x = some (r, R) ∧ Facts (r, R) := by
  cases x with
  | none => cases h
  | some r => exact ⟨r.1, r.2, rfl, by simpa using h⟩

theorem run : ∃ r R, start.run Toy.lib g acts = some (r, R) ∧ Facts (r, R) := of_facts (by decide +kernel)

theorem plain_run : ∃ r R, plainStart.run Toy.lib g plainActs = some (r, R) ∧ Facts (r, R) := of_facts (by decide +kernel)

theorem Facts.accepted {r : Relay Nat × List RelayItem} (h : Facts r) : RelayAccepted r.2 := h.1

theorem Facts.waiting {r : Relay Nat × List RelayItem} (h : Facts r) : r.1.Waiting := by
  obtain ⟨-, ⟨h1, h2, h3, h4⟩, -⟩ := h
  refine ⟨h1, h2, h3, ?_⟩
  cases hp : r.1.proxy with
  | conversation c s =>
    rw [hp] at h4
    exact ⟨c, s, rfl, of_decide_eq_true h4⟩
  | _ => rw [hp] at h4; cases h4

/-- The options of the proxy. -/
def proxyOptions : ServerOptions :=
  match proxyServerOptions Toy.lib with
  | .ok o => o
  | .error _ => options

theorem proxyOptions_eq : proxyServerOptions Toy.lib = .ok proxyOptions := by
  have h : (match proxyServerOptions Toy.lib with | .ok _ => true | .error _ => false) = true := by decide +kernel
  unfold proxyOptions
  split at h
  · rename_i o ho; rw [ho]
  · cases h

/-- The commands respect the limits of the proxy and are decoded to themselves. -/
theorem commands_ok : ∀ c ∈ [cmdA, cmdC], c.isRegular = true ∧ (c.RoundTrip Toy.lib proxyOptions ∧ c.RoundTrip Toy.lib options) ∧
    c.Fits Toy.lib proxyOptions ∧ c.Fits Toy.lib options := by
  have limits : options.maxCommandSize ≤ proxyOptions.maxCommandSize ∧
      options.maxLiteralSize ≤ proxyOptions.maxLiteralSize ∧ proxyOptions.crlfRelaxed = options.crlfRelaxed := by
    decide +kernel
  intro c hc
  obtain ⟨h1, h2, h3, h4⟩ := NetSample.commands_ok c (by
    simp only [List.mem_cons, List.not_mem_nil, or_false] at hc ⊢
    rcases hc with rfl | rfl <;> simp)
  refine ⟨h1, ⟨?_, h2⟩, ⟨Nat.le_trans h3 limits.1, fun d m hd => Nat.le_trans (h4 d m hd) limits.2.1⟩, h3, h4⟩
  unfold Command.RoundTrip at h2 ⊢
  rwa [limits.2.2]

/-- The hypotheses of C57 about the users, for both runs. -/
theorem good_of {R : List RelayItem} (h1 : relayedCommands R = [cmdA, cmdC])
    (h2 : relayedResponses R = [.data caps, .status done])
    (h3 : (events (streamPart (relayClient R))).all
      (fun e => match e with | .commandRejected .. => false | _ => true) = true)
    (h4 : (streamEvents (serverSide (relayProxy R))).all
      (fun e => match e with | .commandRejected .. => false | _ => true) = true) :
    GoodRelay Toy.lib .default proxyOptions options greeting R := by
  refine ⟨?_, ?_, ?_, ?_, ?_, ?_, ?_⟩
  · rw [h1]; exact fun c hc => (commands_ok c hc).1
  · rw [h1]; exact fun c hc => (commands_ok c hc).2.1
  · rw [h1]; exact fun c hc => (commands_ok c hc).2.2
  · intro hd c st
    constructor <;> intro hm
    · cases List.all_eq_true.1 h3 _ hm
    · cases List.all_eq_true.1 h4 _ hm
  · exact ⟨NetSample.line_message (F := greetingFraming Toy.lib false) (b := str "G[CRSQ]hi") (by decide +kernel) (by decide +kernel),
      NetSample.line_message (F := greetingFraming Toy.lib false) (b := str "G[CR]hi") (by decide +kernel) (by decide +kernel)⟩
  · rw [h2]
    intro x hx hd
    simp only [List.mem_cons, List.not_mem_nil, or_false] at hx
    rcases hx with rfl | rfl
    · exact ⟨NetSample.line_message (F := responseFraming Toy.lib false) (b := str "CRIQ") (by decide +kernel) (by decide +kernel),
        NetSample.line_message (F := responseFraming Toy.lib false) (b := str "CRI") (by decide +kernel) (by decide +kernel)⟩
    · exact ⟨NetSample.line_message (F := responseFraming Toy.lib false) (b := str "oA done") (by decide +kernel) (by decide +kernel),
        NetSample.line_message (F := responseFraming Toy.lib false) (b := str "oA done") (by decide +kernel) (by decide +kernel)⟩
  · intro mode
    refine ⟨fun m hm => ⟨StreamNetSample.accept_message mode m hm, StreamNetSample.accept_message mode m hm⟩, ?_⟩
    intro m hm
    have e : acceptReply Toy.lib proxyOptions .sync =
        [.response none (.continuationRequest (.basic none (str "proxy: Literal accepted by proxy")))] := by decide +kernel
    cases mode with
    | nonSync => cases hm
    | sync =>
      rw [e] at hm
      cases List.mem_singleton.1 hm
      exact NetSample.line_message (F := responseFraming Toy.lib false) (b := str "+proxy: Literal accepted by proxy")
        (by decide +kernel) (by decide +kernel)

theorem Facts.good {r : Relay Nat × List RelayItem} (h : Facts r) :
    GoodRelay Toy.lib .default proxyOptions options greeting r.2 := by
  obtain ⟨-, -, h1, h2, -, h3, h4⟩ := h
  exact good_of h1 h2 h3 h4

/-- The conversation has ended. -/
def ended : Proxy Nat → Bool
  | .over => true
  | _ => false

/-- What happens if then the server closes its connection. -/
def EndFacts (r : Relay Nat × List RelayItem) : Prop :=
  (.client .refused ∉ r.2 ∧ .server .refused ∉ r.2 ∧ .proxy (.clientTls .refused) ∉ r.2 ∧
    .proxy (.serverTls .refused) ∉ r.2) ∧
  ended r.1.proxy = true ∧
  relayedCommands r.2 = [cmdA, cmdC] ∧ relayedResponses r.2 = [.data caps, .status done] ∧
  (events (streamPart (relayClient r.2))).all (fun e => match e with | .commandRejected .. => false | _ => true) = true ∧
  (streamEvents (serverSide (relayProxy r.2))).all (fun e => match e with | .commandRejected .. => false | _ => true) = true

instance : DecidablePred EndFacts := fun _ => by unfold EndFacts; infer_instance

theorem end_run : ∃ r R, start.run Toy.lib g (acts ++ [.proxyServer (.read 20)]) = some (r, R) ∧ RelayAccepted R ∧
    GoodRelay Toy.lib .default proxyOptions options greeting R ∧ r.proxy = .over := by
  have h : ((start.run Toy.lib g (acts ++ [.proxyServer (.read 20)])).map fun r => decide (EndFacts r)) = some true := by
    decide +kernel
  cases hx : start.run Toy.lib g (acts ++ [.proxyServer (.read 20)]) with
  | none => rw [hx] at h; cases h
  | some x =>
    rw [hx] at h
    obtain ⟨h0, hp, h1, h2, h3, h4⟩ : EndFacts x := by simpa using h
    refine ⟨x.1, x.2, rfl, h0, good_of h1 h2 h3 h4, ?_⟩
    unfold ended at hp
    split at hp
    · assumption
    · cases hp

end ImapFlow.RelaySample

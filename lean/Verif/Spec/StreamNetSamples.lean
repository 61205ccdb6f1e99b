import Verif.Spec.StreamNet
import Verif.Spec.NetSamples
import Verif.Spec.NetRejectSamples

/-!
# A concrete run of a client and a server on streams

Two runs with the record layer `toyLayer` and without TLS: fragmented reads and writes, a dropped `next` on both
sides, a `flush`, a command with literals, one without, and data from the server.  And a run in which the server
rejects a literal.
-/

namespace ImapFlow.StreamNetSample

open ClientSample (str g)
open ServerSample (options greeting)
open NetSample (cmdA cmdC cmdX of_check)

/-- A connection. -/
def tls (readKey writeKey : Nat) : Tls Nat :=
  { layer := toyLayer, readSize := 5, limit := 32, readKey, raw := [], plain := [], closed := false, writeKey
    sendable := [] }

/-- Two streams with TLS. -/
def start : StreamNet Nat := .new (some (tls 5 0)) (some (tls 0 5)) g .default g options greeting

/-- Two streams without TLS. -/
def plainStart : StreamNet Nat := .new none none g .default g options greeting

theorem handshaken : Handshaken (· = ·) (some (tls 5 0)) (some (tls 0 5)) :=
  ⟨⟨rfl, toyLayer_receives, toyLayer_delivers⟩, ⟨⟨rfl, rfl, by decide, rfl⟩, rfl, rfl, rfl⟩,
    ⟨⟨rfl, rfl, by decide, rfl⟩, rfl, rfl, rfl⟩⟩

/-- The environment. -/
def acts : List StreamNetAct :=
  [.client (.user (.enqueueCommand cmdA)), .client (.user (.enqueueCommand cmdC)), .client .callNext, .server
   .callNext, .server (.write 9), .client (.read 5), .server (.write 1), .client (.read 6), .server .callNext,
   .client .callNext, .client (.write 7), .server (.read 14), .client (.write 3), .server (.read 16), .server
   (.write 9), .client (.read 11), .server .drop, .server .callFlush, .server (.write 1), .client (.read 14),
   .server (.user (.enqueueData (.other (str "d")))), .client (.write 7), .server .callNext, .client .drop,
   .server (.read 30), .client .callNext, .server (.write 8), .client (.write 7), .server .callNext, .client
   (.read 19), .server (.read 36), .client .callNext, .server (.write 9), .client (.read 21), .server (.write
   1), .client (.read 22), .client (.write 7), .server (.read 44), .client (.write 1), .server (.read 46),
   .client .callNext, .server .callNext, .client (.write 7), .server (.read 50), .client (.write 5), .server
   (.read 52), .client .callNext, .server .callNext]

/-- What happens. -/
def Facts (r : StreamNet Nat × List StreamNetItem) : Prop :=
  (.client .refused ∉ r.2 ∧ .server .refused ∉ r.2) ∧ r.1.Waiting ∧
  (atClient r.2).filterMap StreamItem.enqueued? = [cmdA, cmdC] ∧
  (events (atServer r.2)).filterMap ServerEvent.received? = [cmdA, cmdC] ∧
  (events (atClient r.2)).filterMap ClientEvent.sentCommand? = [cmdA, cmdC] ∧
  (atServer r.2).filterMap StreamItem.response? = [.data (.other (str "d"))] ∧
  (events (atClient r.2)).filterMap ClientEvent.data? = [.other (str "d")] ∧
  (events (atClient r.2)).all (fun e => match e with | .commandRejected .. => false | _ => true) = true

instance (n : StreamNet Nat) : Decidable n.Waiting := by unfold StreamNet.Waiting; infer_instance
instance : DecidablePred Facts := fun _ => by unfold Facts; infer_instance

theorem of_facts {P : StreamNet Nat × List StreamNetItem → Prop} [DecidablePred P]
    {x : Option (StreamNet Nat × List StreamNetItem)} (h : (x.map fun r => decide (P r)) = some true) :
    ∃ n G, x = some (n, G) ∧ P (n, G) := by
  cases x with
  | none => cases h
  | some r => exact ⟨r.1, r.2, rfl, by simpa using h⟩

theorem run : ∃ n G, start.run Toy.lib acts = some (n, G) ∧ Facts (n, G) := of_facts (by decide +kernel)

/-- The environment without TLS. -/
def plainActs : List StreamNetAct :=
  [.client (.user (.enqueueCommand cmdA)), .client (.user (.enqueueCommand cmdC)), .client .callNext, .server
   .callNext, .server (.write 3), .client .drop, .server (.write 2), .server .callNext, .server .drop, .server
   (.user (.enqueueData (.other (str "d")))), .server .callFlush, .client .callNext, .server .callNext, .server
   (.write 4), .client (.read 5), .client .callNext, .server .callNext, .client (.write 3), .client (.write 2),
   .client (.read 5), .server (.read 6), .client .callNext, .server (.write 4), .server (.write 1), .client
   (.read 5), .client (.write 7), .server (.read 6), .server (.read 6), .server (.write 4), .server (.write 1),
   .client (.read 5), .client (.write 3), .client (.write 1), .server (.read 6), .client .callNext, .server
   .callNext, .client (.write 3), .client (.write 2), .client (.write 1), .server (.read 6), .client .callNext,
   .server .callNext]

theorem plain_run : ∃ n G, plainStart.run Toy.lib plainActs = some (n, G) ∧ Facts (n, G) := of_facts (by decide +kernel)

/-- The server rejects a literal, and its user enqueues a response when the error is returned. -/
def rejectActs : List StreamNetAct :=
  [.client (.user (.enqueueCommand cmdX)), .client .callNext, .server .callNext, .server (.write 4), .server
   (.write 1), .client (.read 5), .client .callNext, .server .callNext, .client (.write 7), .client (.write 1),
   .server (.read 6), .server (.read 6), .server (.write 4), .server (.write 1), .client (.read 5), .client
   (.write 7), .client (.write 3), .client (.write 2), .client (.write 1), .server (.read 6), .server (.read 6),
   .server (.read 6), .server (.user (.enqueueData (.other (str "d")))), .server .callNext, .server (.write 4),
   .server (.write 3), .client (.read 5), .client (.read 5), .client .callNext]

/-- Both users wait, and the client has not received the response. -/
def Stalled (r : StreamNet Nat × List StreamNetItem) : Prop :=
  (.client .refused ∉ r.2 ∧ .server .refused ∉ r.2) ∧ r.1.Waiting ∧
  (atClient r.2).filterMap StreamItem.enqueued? = [cmdX] ∧
  (atServer r.2).filterMap StreamItem.response? = [.data (.other (str "d"))] ∧
  (events (atClient r.2)).filterMap ClientEvent.data? = []

instance : DecidablePred Stalled := fun _ => by unfold Stalled; infer_instance

theorem reject_run : ∃ n G, plainStart.run Toy.lib rejectActs = some (n, G) ∧ Stalled (n, G) := of_facts (by decide +kernel)

/-- The server's options were built with the setters. -/
theorem built : ServerOptions.Built Toy.lib options :=
  .accept (text := str "ok") (r := .ok ()) (.reject (text := str "no") (r := .ok ())
    (.maxCommandSize 40 (.maxLiteralSize 4 (.default rfl))) rfl) rfl

theorem data_message : ∀ h, (ServerMessage.response h (.data (.other (str "d")))).RoundTrip Toy.lib .default := fun _ =>
  NetSample.line_message (F := responseFraming Toy.lib false) (b := str "*d") (by decide +kernel) (by decide +kernel)

theorem greeting_message : (ServerMessage.greeting greeting).RoundTrip Toy.lib .default :=
  NetSample.line_message (F := greetingFraming Toy.lib false) (b := str "Ghi") (by decide +kernel) (by decide +kernel)

theorem accept_message : ∀ mode, ∀ m ∈ acceptReply Toy.lib options mode, m.RoundTrip Toy.lib .default := by
  intro mode m hm
  have e : acceptReply Toy.lib options .sync = [.response none (.continuationRequest (.basic none (str "ok")))] := by
    decide +kernel
  cases mode with
  | nonSync => cases hm
  | sync =>
    rw [e] at hm
    cases List.mem_singleton.1 hm
    exact NetSample.line_message (F := responseFraming Toy.lib false) (b := str "+ok") (by decide +kernel) (by decide +kernel)

/-- The hypotheses of C51 about the users, for both runs. -/
theorem goodUse {r : StreamNet Nat × List StreamNetItem} (h : Facts r) : GoodUse Toy.lib .default options greeting r.2 := by
  obtain ⟨-, -, h3, -, -, h6, -, h8⟩ := h
  have hc : ∀ c ∈ (atClient r.2).filterMap StreamItem.enqueued?,
      c.isRegular = true ∧ c.RoundTrip Toy.lib options ∧ c.Fits Toy.lib options := by
    intro c hc
    rw [h3] at hc
    refine NetSample.commands_ok c ?_
    simp only [List.mem_cons, List.not_mem_nil, or_false] at hc ⊢
    rcases hc with rfl | rfl <;> simp
  refine ⟨⟨fun c h => (hc c h).1, fun c h => (hc c h).2.1, fun c h => (hc c h).2.2, ?_⟩, greeting_message, ?_, accept_message⟩
  · intro h c st hm
    have := List.all_eq_true.1 h8 _ hm
    cases this
  · intro x hx
    rw [h6] at hx
    cases List.mem_singleton.1 hx
    exact data_message

end ImapFlow.StreamNetSample

import Verif.Spec.StreamReject
import Verif.Spec.StreamDialogueSamples
import Verif.Spec.NetRejectSamples

/-!
# Concrete runs with a rejected literal on streams
-/

namespace ImapFlow.StreamRejectSample

open ClientSample (str g)
open ServerSample (options greeting)
open NetSample (cmdA cmdC cmdX of_check badOk)
open StreamNetSample (start plainStart of_facts)
open StreamDialogueSample (play called)

/-- A command with two literals; then a BAD of the user of the server for it, while a command whose second literal is too
long is transmitted, and another command. -/
def script : List (List StreamNetAct) :=
  [[.client (.user (.enqueueCommand cmdA))],
   [.server .drop, .client .drop, .server (.user (.enqueueStatus (.tagged (str "A") ⟨.bad, none, str "t"⟩))),
    .client (.user (.enqueueCommand cmdX)), .client (.user (.enqueueCommand cmdC))]]

/-- What the theorems ask for. -/
def Mixed (r : Net × List NItem) : Prop :=
  (clientEnqueued (clientItems r.2)).map (·.2) = [cmdA, cmdX, cmdC] ∧
  (∀ m ∈ serverMessages greeting (serverItems r.2), m ∈ [.greeting greeting,
     .response none (.continuationRequest (.basic none (str "ok"))),
     .response (some (ServerSample.h 0)) (.status (.tagged (str "A") ⟨.bad, none, str "t"⟩)),
     .response none (.status (.tagged (str "X") ⟨.bad, none, str "no"⟩))]) ∧
  badOk [] r.2 = true

instance : DecidablePred Mixed := fun _ => by unfold Mixed; infer_instance

def Suits (G : List StreamNetItem) (x : Except Panic (Net × List NItem)) : Prop :=
  (.client .refused ∉ G ∧ .server .refused ∉ G) ∧ (x.map fun r => decide (Mixed r)) = .ok true

instance (G : List StreamNetItem) (x : Except Panic (Net × List NItem)) : Decidable (Suits G x) := by
  unfold Suits; infer_instance

theorem Suits.hypotheses {G : List StreamNetItem} (h : Suits G (called G)) :
    (.client .refused ∉ G ∧ .server .refused ∉ G) ∧ ∃ n T, called G = .ok (n, T) ∧
      (∀ m ∈ serverMessages greeting (serverItems T), m.RoundTrip Toy.lib .default) ∧
      MixedCommands Toy.lib options (clientEnqueued (clientItems T)) ∧ PoliteServer greeting T := by
  obtain ⟨⟨n, T⟩, h1, h2, h3, h4⟩ := of_check (P := Mixed) h.2
  refine ⟨h.1, n, T, h1, fun m hm => NetSample.known_messages m (h3 m hm), NetSample.mixed_commands h2, ?_, ?_⟩
  · intro hd q hm
    have := h3 _ hm
    simp at this
  · intro T1 i T2 hd tag body hT hi hb
    simpa using NetSample.of_badOk h4 hT hi hb

/-- What the users got in the end. -/
def Told (G : List StreamNetItem) : Prop :=
  verdicts (atServer G) = [.ok cmdA, .error (.literalTooLong (wire (cmdX.transmitted Toy.lib options))), .ok cmdC] ∧
  (events (atClient G)).filter ClientEvent.isTerminal = [.commandSent ClientSample.hA cmdA,
    .commandRejected ClientSample.hB cmdX (.tagged (str "X") ⟨.bad, none, str "no"⟩),
    .commandSent ClientSample.hC cmdC]

instance : DecidablePred Told := fun _ => by unfold Told; infer_instance

theorem tls_run : ∃ n G, start.run Toy.lib (play start script) = some (n, G) ∧ n.Waiting ∧ Suits G (called G) ∧ Told G :=
  of_facts (P := fun r => r.1.Waiting ∧ Suits r.2 (called r.2) ∧ Told r.2) (by decide +kernel)

theorem plain_run : ∃ n G, plainStart.run Toy.lib (play plainStart script) = some (n, G) ∧ n.Waiting ∧
    Suits G (called G) ∧ Told G :=
  of_facts (P := fun r => r.1.Waiting ∧ Suits r.2 (called r.2) ∧ Told r.2) (by decide +kernel)

/-! ## In terms of the users -/

/-- The tagged BADs of the user of the server, checked from left to right. -/
def politeOk : List Command → List (StreamItem ServerError ServerEvent ServerOp) → Bool
  | _, [] => true
  | cs, i :: S =>
    (match i.response? with
      | some (.status (.tagged tag body)) => body.kind != .bad || cs.any fun c => c.tag == tag
      | _ => true) && politeOk (cs ++ (i.returned?.bind ServerEvent.received?).toList) S

theorem of_politeOk {cs : List Command} {S : List (StreamItem ServerError ServerEvent ServerOp)} (h : politeOk cs S = true)
    {S1 S2 : List (StreamItem ServerError ServerEvent ServerOp)} {i : StreamItem ServerError ServerEvent ServerOp}
    {tag : Tag} {body : StatusBody} (hS : S = S1 ++ i :: S2) (hi : i.response? = some (.status (.tagged tag body)))
    (hb : body.kind = .bad) : ∃ c ∈ cs ++ (events S1).filterMap ServerEvent.received?, c.tag = tag := by
  induction S1 generalizing cs S with
  | nil =>
    subst hS
    simp only [List.nil_append, politeOk, Bool.and_eq_true, hi, hb, bne_self_eq_false, Bool.false_or, List.any_eq_true,
      beq_iff_eq] at h
    simpa [events] using h.1
  | cons j S1 ih =>
    subst hS
    simp only [List.cons_append, politeOk, Bool.and_eq_true] at h
    obtain ⟨c, h1, h2⟩ := ih h.2 rfl
    refine ⟨c, ?_, h2⟩
    have : (events (j :: S1)).filterMap ServerEvent.received? =
        (j.returned?.bind ServerEvent.received?).toList ++ (events S1).filterMap ServerEvent.received? := by
      unfold events
      rw [List.filterMap_filterMap, List.filterMap_filterMap, List.filterMap_cons]
      cases j.returned?.bind ServerEvent.received? <;> rfl
    rw [this, ← List.append_assoc]
    exact h1

/-- What the users do in these runs. -/
def Users (G : List StreamNetItem) : Prop :=
  (.client .refused ∉ G ∧ .server .refused ∉ G) ∧ (atClient G).filterMap StreamItem.enqueued? = [cmdA, cmdX, cmdC] ∧
  (atServer G).filterMap StreamItem.response? = [.status (.tagged (str "A") ⟨.bad, none, str "t"⟩)] ∧
  politeOk [] (atServer G) = true

instance : DecidablePred Users := fun _ => by unfold Users; infer_instance

theorem Users.mixed {G : List StreamNetItem} (h : Users G) : MixedUse Toy.lib .default options greeting (atClient G) (atServer G) := by
  obtain ⟨-, h1, h2, h3⟩ := h
  have hm := NetSample.mixed_commands (E := [(ClientSample.hA, cmdA), (ClientSample.hA, cmdX), (ClientSample.hA, cmdC)]) rfl
  have mem : ∀ {P : Command → Prop}, (∀ x ∈ [(ClientSample.hA, cmdA), (ClientSample.hA, cmdX), (ClientSample.hA, cmdC)], P x.2) →
      ∀ c ∈ [cmdA, cmdX, cmdC], P c := by
    intro P hP c hc
    simp only [List.mem_cons, List.not_mem_nil, or_false] at hc
    rcases hc with rfl | rfl | rfl
    · exact hP (ClientSample.hA, cmdA) (by simp)
    · exact hP (ClientSample.hA, cmdX) (by simp)
    · exact hP (ClientSample.hA, cmdC) (by simp)
  have hk := NetSample.known_messages
  have hrej : ∀ c ∈ [cmdA, cmdX, cmdC], IsMessage (responseFraming Toy.lib false) ((Toy.lib.encodeResponse
      (.status (.tagged c.tag ⟨.bad, none, str "no"⟩))).flatMap Fragment.data) (.status (.tagged c.tag ⟨.bad, none, str "no"⟩)) := by
    intro c hc
    simp only [List.mem_cons, List.not_mem_nil, or_false] at hc
    rcases hc with rfl | rfl | rfl
    · exact NetSample.line_message (b := str "bA no") (by decide +kernel) (by decide +kernel)
    · exact NetSample.line_message (b := str "bX no") (by decide +kernel) (by decide +kernel)
    · exact NetSample.line_message (b := str "bC no") (by decide +kernel) (by decide +kernel)
  refine ⟨?_, ?_, ?_, ?_, ?_, ?_, ?_, hk _ (by simp), ?_, ?_, ?_⟩
  · rw [h1]; exact mem hm.regular
  · rw [h1]; exact mem hm.roundTrip
  · rw [h1]; exact mem hm.size
  · rw [h1]; exact mem hm.sync
  · rw [h1]; exact hm.tags
  · rw [h2]; simp
  · intro S1 i S2 tag body hS hi hb
    simpa using of_politeOk h3 hS hi hb
  · rw [h2]
    intro r hr hd
    cases List.mem_singleton.1 hr
    exact hk (.response (some (ServerSample.h 0)) _) (by simp)
  · intro mode m hm
    cases mode with
    | nonSync => cases hm
    | sync => cases List.mem_singleton.1 (show m ∈ [_] from hm); exact hk _ (by simp)
  · rw [h1]
    intro c hc mode m hm
    cases mode with
    | nonSync => cases hm
    | sync => cases List.mem_singleton.1 (show m ∈ [_] from hm); exact hrej c hc

theorem tls_users : ∃ n G, start.run Toy.lib (play start script) = some (n, G) ∧ n.Waiting ∧ Users G ∧ Told G ∧
    (events (atClient G)).filterMap ClientEvent.told? = [.status (.tagged (str "A") ⟨.bad, none, str "t"⟩)] :=
  of_facts (P := fun r => r.1.Waiting ∧ Users r.2 ∧ Told r.2 ∧
    (events (atClient r.2)).filterMap ClientEvent.told? = [.status (.tagged (str "A") ⟨.bad, none, str "t"⟩)]) (by decide +kernel)

end ImapFlow.StreamRejectSample

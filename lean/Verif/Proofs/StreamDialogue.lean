import Verif.Spec.StreamDialogue
import Verif.Proofs.StreamNetWait
import Verif.Proofs.StreamNetReports
import Verif.Proofs.DialogueStuck
import Verif.Proofs.DialogueRun

/-!
# Dialogues on streams
-/

namespace ImapFlow

variable {K : Type} {paired : K → K → Prop} {L : Lib} {gc gs : HandleGenerator} {oc : ClientOptions} {os : ServerOptions}
  {gr : Greeting} {n : Net} {T : List NItem}

theorem command_event_ne (c : Command) : (∀ g, ¬ ServerEvent.greetingSent g = c.event) ∧
    ∀ hd r, ¬ ServerEvent.responseSent hd r = c.event := by
  unfold Command.event
  constructor <;> intros <;> split <;> simp

theorem Net.Linked.events_heard (h : Net.Linked L gc oc gs os gr n T)
    {S : List (StreamItem ServerError ServerEvent ServerOp)} (hS : ServerRecord S (serverItems T))
    (he : events S = S.filterMap fun i => i.poll?.bind Except.toOption) :
    (events S).filterMap ServerEvent.heard? = serverHeard (serverItems T) := by
  have h1 : events S = ((serverItems T).filterMap SItem.result?).filterMap Except.toOption := by
    rw [he, hS.results, List.filterMap_filterMap]
  unfold serverHeard
  rw [h1, List.filterMap_filterMap, List.filterMap_filterMap]
  refine filterMap_congr' fun i hi => ?_
  obtain ⟨v, hv⟩ := h.server_guard hi
  cases i with
  | sent e =>
    obtain ⟨-, m, -, hm⟩ := hv
    cases m with
    | greeting g => cases hm; rfl
    | response hd r => cases hd <;> cases hm; rfl
  | received w e =>
    obtain ⟨-, -, -, ht, -⟩ := hv
    cases e with
    | greetingSent g => exact absurd ht (by unfold Taken; split <;> simp [command_event_ne])
    | responseSent hd r => exact absurd ht (by unfold Taken; split <;> simp [command_event_ne])
    | _ => rfl
  | _ => rfl

theorem Net.Linked.events_answers (hL : L.Lawful) (h : Net.Linked L gc oc gs os gr n T)
    {S : List (StreamItem ClientError ClientEvent ClientOp)} (hS : ClientRecord S (clientItems T))
    (he : events S = S.filterMap fun i => i.poll?.bind Except.toOption) :
    (events S).filterMap ClientEvent.answer? = clientAnswers (clientItems T) := by
  have h1 : events S = ((clientItems T).filterMap CItem.result?).filterMap Except.toOption := by
    rw [he, hS.results, List.filterMap_filterMap]
  unfold clientAnswers
  rw [h1, List.filterMap_filterMap, List.filterMap_filterMap]
  refine filterMap_congr' fun i hi => ?_
  obtain ⟨v, hv⟩ := h.client_guard hL hi
  cases i with
  | sent e => obtain ⟨-, hd, cmd, q, -, ⟨rfl, -⟩ | ⟨rfl, -⟩ | ⟨rfl, -⟩ | ⟨rfl, -⟩⟩ := hv <;> rfl
  | received w e => cases e <;> rfl
  | _ => rfl

/-- What the streams did, as a trace of the plain system. -/
theorem StreamNet.traced (hL : L.Lawful) (hO : ServerOptions.Built L os) {tc ts : Option (Tls K)}
    (hh : Handshaken paired tc ts) {as : List StreamNetAct} {sn : StreamNet K} {G : List StreamNetItem}
    (h : (StreamNet.new tc ts gc oc gs os gr).run L as = some (sn, G))
    (hr : .client .refused ∉ G ∧ .server .refused ∉ G)
    (hT : (Net.new gc oc gs os gr).run L (G.flatMap StreamNetItem.calls) = .ok (n, T)) :
    Tracks paired sn n ∧ ClientRecord (atClient G) (clientItems T) ∧ ServerRecord (atServer G) (serverItems T) ∧ Healthy G := by
  obtain ⟨n', T', h1, h2, h3, h4, h5⟩ := StreamNet.Tracks.run (ops := []) hL hO rfl (StreamNet.new_tracks hh gc gs oc os gr) h hr
  rw [hT] at h1
  cases h1
  exact ⟨h2, h3, h4, h5⟩

/-- Both streams wait: the plain system asked for input on both sides, and nothing is on the way. -/
theorem StreamNet.waiting_starved (hL : L.Lawful) (hO : ServerOptions.Built L os) {tc ts : Option (Tls K)}
    (hh : Handshaken paired tc ts) {as : List StreamNetAct} {sn : StreamNet K} {G : List StreamNetItem}
    (h : (StreamNet.new tc ts gc oc gs os gr).run L as = some (sn, G))
    (hr : .client .refused ∉ G ∧ .server .refused ∉ G)
    (hT : (Net.new gc oc gs os gr).run L (G.flatMap StreamNetItem.calls) = .ok (n, T))
    (hrt : ∀ m ∈ serverMessages gr (serverItems T), m.RoundTrip L oc) (hw : sn.Waiting) :
    (∃ A, clientItems T = A ++ [.starved]) ∧ (∃ B, serverItems T = B ++ [.starved]) ∧ n.toServer = [] ∧ n.toClient = [] := by
  obtain ⟨h2, h3, h4, -⟩ := StreamNet.traced hL hO hh h hr hT
  obtain ⟨w1, w2, w3, w4⟩ := hw
  obtain ⟨a1, a2⟩ := StreamNet.Tracks.waiting (ops := []) hL hO rfl (StreamNet.new_tracks hh gc gs oc os gr) h hr
  have ha := (a1 w3).resolve_left (fun h => by simp [StreamNet.new] at h)
  have ha' := (a2 w4).resolve_left (fun h => by simp [StreamNet.new] at h)
  obtain ⟨hA, hB⟩ := (Net.run_linked hT).asked hL hrt h3 h4 ha ha'
  refine ⟨hA, hB, ?_, ?_⟩
  · have := h2.toServer
    rw [w1, h2.clientSound.reading w3] at this
    exact this.empty
  · have := h2.toClient
    rw [w2, h2.serverSound.reading w4] at this
    exact this.empty

end ImapFlow

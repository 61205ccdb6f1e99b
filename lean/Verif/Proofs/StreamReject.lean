import Verif.Spec.StreamReject
import Verif.Proofs.StreamDialogue
import Verif.Proofs.FullStreamReturns

/-!
# Outcomes of `next` on streams
-/

namespace ImapFlow

variable {K σ ε ev ι : Type}

/-- The outcome that the state returned. -/
def StreamItem.polled? : StreamItem ε ev ι → Option (Except ε ev)
  | .poll (.ok e) => some (.ok e)
  | .poll (.error (.error e)) => some (.error e)
  | _ => none

/-- An outcome that the stream has still to return. -/
def pendingOutcome : Option (FullItem ε ev ι) → Option (Except ε ev)
  | some (.stream i) => i.polled?
  | _ => none

theorem streamPart_filterMap_cons {β : Type} (f : StreamItem ε ev ι → Option β) (x : FullItem ε ev ι)
    (T : List (FullItem ε ev ι)) :
    (streamPart (x :: T)).filterMap f = (x.stream?.bind f).toList ++ (streamPart T).filterMap f := by
  unfold streamPart
  rw [List.filterMap_cons]
  cases x with
  | stream i =>
    show List.filterMap f (i :: _) = (f i).toList ++ _
    rw [List.filterMap_cons]
    cases f i <;> rfl
  | _ => rfl

theorem pendingOutcome_some (x : FullItem ε ev ι) : x.stream?.bind StreamItem.polled? = pendingOutcome (some x) := by
  cases x <;> rfl

theorem Neighbours.outcome {a : Option (FullItem ε ev ι)} {x : FullItem ε ev ι} (h1 : Neighbours a (some x)) :
    x.stream?.bind StreamItem.outcome? = pendingOutcome a := by
  cases hp : pendingOutcome a with
  | some o =>
    have hx : x = .stream (.returned (match o with | .ok e => .ok e | .error e => .error (.state e))) := by
      rcases a with _ | (i | _ | _ | _) <;> try (cases hp; done)
      cases i <;> try (cases hp; done)
      rename_i r
      rcases r with (_ | _) | _ <;> try (cases hp; done)
      · cases hp; have := h1.error _ rfl; cases this; rfl
      · cases hp; have := h1.event _ rfl; cases this; rfl
    subst hx
    cases o <;> rfl
  | none =>
    cases hx : x.stream?.bind StreamItem.outcome? with
    | none => rfl
    | some o =>
      exfalso
      obtain ⟨r, rfl, hr⟩ : ∃ r, x = .stream (.returned r) ∧ ((∃ e, r = .ok e) ∨ ∃ e, r = .error (.state e)) := by
        cases x with
        | stream i =>
          have hx : i.outcome? = some o := hx
          unfold StreamItem.outcome? at hx
          split at hx
          · exact ⟨_, rfl, .inl ⟨_, rfl⟩⟩
          · exact ⟨_, rfl, .inr ⟨_, rfl⟩⟩
          · cases hx
        | _ => cases hx
      obtain ⟨y, rfl, h3⟩ := h1.returned _ rfl
      rcases h3 with ⟨i, rfl, h3⟩ | ⟨-, h3⟩
      · rcases hr with ⟨e, rfl⟩ | ⟨e, rfl⟩
        · have h3 : i = .poll (.ok e) := h3
          subst h3; cases hp
        · have h3 : i = .poll (.error (.error e)) := h3
          subst h3; cases hp
      · subst h3
        rcases hr with ⟨e, hr⟩ | ⟨e, hr⟩ <;> cases hr

theorem AllNeighbours.outcomes {a : Option (FullItem ε ev ι)} {T : List (FullItem ε ev ι)} (h : AllNeighbours a T) :
    (pendingOutcome a).toList ++ (streamPart T).filterMap StreamItem.polled? =
      (streamPart T).filterMap StreamItem.outcome? := by
  induction T generalizing a with
  | nil =>
    have h : Neighbours a none := h
    have : pendingOutcome a = none := by
      unfold pendingOutcome StreamItem.polled?
      split
      · split
        · have := h.event _ rfl; cases this
        · have := h.error _ rfl; cases this
        · rfl
      · rfl
    rw [this]; rfl
  | cons x T ih =>
    rw [streamPart_filterMap_cons, streamPart_filterMap_cons, pendingOutcome_some, ih h.2, h.1.outcome]

/-- At any time, `next` has returned a beginning of the outcomes of the state. -/
theorem AllNeighbours.outcomes_prefix {a : Option (FullItem ε ev ι)} {T U : List (FullItem ε ev ι)}
    (h : AllNeighbours a (T ++ U)) : (streamPart T).filterMap StreamItem.outcome? <+:
      (pendingOutcome a).toList ++ (streamPart T).filterMap StreamItem.polled? := by
  induction T generalizing a with
  | nil => exact List.nil_prefix
  | cons x T ih =>
    rw [streamPart_filterMap_cons, streamPart_filterMap_cons, pendingOutcome_some, h.1.outcome]
    exact (List.prefix_append_right_inj _).2 (ih h.2)

variable {L : Lib} {gc gs : HandleGenerator} {oc : ClientOptions} {os : ServerOptions} {gr : Greeting} {n : Net}
  {T : List NItem}

/-- Each event and each error of the server is returned by `next`, in order. -/
theorem StreamNet.server_outcomes {sn sn' : StreamNet K} {as : List StreamNetAct} {G : List StreamNetItem}
    (h : sn.run L as = some (sn', G)) :
    (atServer G).filterMap StreamItem.outcome? = (atServer G).filterMap StreamItem.polled? := by
  obtain ⟨-, ss, hs⟩ := StreamNet.run_parts h
  have := (FullStream.run_neighbours hs).outcomes
  rw [(StreamNet.serverPart_spec G).1] at this
  simpa [pendingOutcome] using this.symm

/-- The verdict of an item of a server. -/
def SItem.verdict? : SItem → Option (Except ServerError Command)
  | .received _ (.commandReceived c) => some (.ok c)
  | .failed e _ => some (.error e)
  | _ => none

theorem Net.Linked.verdicts (h : Net.Linked L gc oc gs os gr n T)
    {S : List (StreamItem ServerError ServerEvent ServerOp)} (hS : ServerRecord S (serverItems T))
    (ho : S.filterMap StreamItem.outcome? = S.filterMap StreamItem.polled?) :
    ImapFlow.verdicts S = ((serverItems T).filter SItem.reads).filterMap SItem.verdict? := by
  have key : ∀ i : StreamItem ServerError ServerEvent ServerOp, i.polled?.bind ServerEvent.verdict? =
      i.poll?.bind fun | .ok e => ServerEvent.verdict? (.ok e) | .error (.error e) => some (.error e) | _ => none := by
    intro i
    cases i with
    | poll r => rcases r with (_ | _) | _ <;> rfl
    | _ => rfl
  unfold ImapFlow.verdicts
  rw [ho, List.filterMap_filterMap, funext key, ← List.filterMap_filterMap, ← hS.results, List.filterMap_filterMap,
    List.filterMap_filter]
  refine filterMap_congr' fun i hi => ?_
  obtain ⟨v, hv⟩ := h.server_guard hi
  cases i with
  | sent e =>
    obtain ⟨-, m, -, hm⟩ := hv
    cases m with
    | greeting g => cases hm; rfl
    | response hd r => cases hd <;> cases hm; rfl
  | received w e => cases e <;> rfl
  | _ => rfl

theorem serverRead_verdicts (E : List (RawHandle × Command)) :
    (E.map fun x => x.2.serverRead L os).filterMap SItem.verdict? = E.map fun x => x.2.verdict L os := by
  induction E with
  | nil => rfl
  | cons x E ih =>
    rw [List.map_cons, List.filterMap_cons, List.map_cons, ih]
    unfold Command.serverRead Command.verdict
    cases x.2.accepted L os <;> rfl

theorem ClientRecord.events_terminals {S : List (StreamItem ClientError ClientEvent ClientOp)} {U : List CItem}
    (hS : ClientRecord S U) (he : events S = S.filterMap fun i => i.poll?.bind Except.toOption) :
    (events S).filter ClientEvent.isTerminal = clientTerminals U := by
  have h1 : events S = (U.filterMap CItem.result?).filterMap Except.toOption := by
    rw [he, hS.results, List.filterMap_filterMap]
  unfold clientTerminals
  rw [h1, ← List.filterMap_eq_filter, List.filterMap_filterMap, List.filterMap_filterMap]
  refine filterMap_congr' fun i hi => ?_
  cases i with
  | sent e => cases e <;> rfl
  | received w e => cases e <;> rfl
  | _ => rfl

end ImapFlow

import Verif.Proofs.SessionRest

/-!
# What the example programs say to each other
-/

namespace ImapFlow

variable {K : Type} {L : Lib} {gs : HandleGenerator} {os : ServerOptions} {gr : Greeting}

/-! ## The calls of a server -/

section
variable {τ : Type} {P' : Program τ Server ServerEvent ServerOp}

/-- All calls that the program makes have this shape. -/
structure ServerShaped (L : Lib) (P' : Program τ Server ServerEvent ServerOp) (shape : SItem → Prop) : Prop where
  event : ∀ {v c e coin v' c' calls flow J}, P'.event v c e coin = .ok (v', c', calls, flow) → c.Calls L calls c' J →
    ∀ j ∈ J, shape j
  line : ∀ {v c text v' c' calls J}, P'.line v c text = some (.ok (v', c', calls)) → c.Calls L calls c' J → ∀ j ∈ J, shape j

/-- The calls in the trace have this shape, and only they enqueue responses with a handle. -/
def Shapely (shape : SItem → Prop) (A : List SItem) : Prop :=
  ∀ i ∈ A, (i.op? ≠ none → shape i) ∧ ∀ h r, .response (some h) r ∈ i.enqueues → shape i

theorem Shapely.nil {shape : SItem → Prop} : Shapely shape [] := fun _ hi => (List.not_mem_nil hi).elim

theorem Shapely.append {shape : SItem → Prop} {A B : List SItem} (hA : Shapely shape A) (hB : Shapely shape B) :
    Shapely shape (A ++ B) := fun i hi => (List.mem_append.1 hi).elim (hA i) (hB i)

theorem Shapely.of_calls {shape : SItem → Prop} {B : List SItem} (h : ∀ j ∈ B, shape j) : Shapely shape B :=
  fun i hi => ⟨fun _ => h i hi, fun _ _ _ => h i hi⟩

theorem Shapely.other {shape : SItem → Prop} {A B : List SItem} {i : SItem} {ops : List ServerOp} {c : Server}
    (ho : i.op? = none) (h : (Server.new gs os gr).trace L ops = .ok (c, A ++ i :: B)) : Shapely shape [i] := by
  intro j hj
  rw [List.mem_singleton.1 hj]
  refine ⟨fun hn => (hn ho).elim, fun hd r hm => ?_⟩
  have hg := Server.trace_guard h
  cases i with
  | literal p rs =>
    obtain ⟨-, -, -, -, -, tag, k, mode, -, -, rfl⟩ := hg
    replace hm : _ ∈ acceptReply L os mode := hm
    unfold acceptReply at hm
    split at hm
    · cases hm
    · split at hm
      · split at hm
        · cases List.mem_singleton.1 hm
        · cases hm
      · cases hm
  | failed e rs => exact (hg.2.2.1.no_handle hd r hm).elim
  | enqueue => cases ho
  | authContinue => cases ho
  | authFinish => cases ho
  | idleAccept => cases ho
  | idleReject => cases ho
  | _ => exact absurd hm List.not_mem_nil

theorem ServerKept.shaped {I : τ → List SItem → Prop} {Q : List SItem → Prop} {shape : SItem → Prop}
    (hk : ServerKept L gs os gr P' I Q) (hs : ServerShaped L P' shape) :
    ServerKept L gs os gr P' (fun v A => I v A ∧ Shapely shape A) Q where
  start := ⟨hk.start, .nil⟩
  silent hI hi ht := ⟨hk.silent hI.1 hi ht, hI.2.append (.other (by
    rename_i i _ _ _
    revert hi
    cases i <;> simp [SItem.Silent, SItem.op?]) ht)⟩
  event coin hI hi ht := by
    obtain ⟨v', c', calls, flow, J, h1, h2, h3, h4⟩ := hk.event coin hI.1 hi ht
    rename_i v A i e ops c
    refine ⟨v', c', calls, flow, J, h1, h2, fun hf => ⟨h3 hf, ?_⟩, h4⟩
    have h5 : Shapely shape [i] := .other (by revert hi; cases i <;> simp [SItem.event?, SItem.op?]) ht
    exact hI.2.append (h5.append (.of_calls (hs.event h1 h2)))
  line hI ht hx := by
    obtain ⟨v', c', calls, J, rfl, h2, h3⟩ := hk.line hI.1 ht hx
    exact ⟨v', c', calls, J, rfl, h2, h3, hI.2.append (.of_calls (hs.line hx h2))⟩

end

/-! ## Tags -/

/-- The tag of the command that is reported. -/
def ServerEvent.tag? : ServerEvent → Option Tag
  | .commandReceived c => some c.tag
  | .commandAuthenticateReceived ca => some ca.tag
  | .idleCommandReceived tag => some tag
  | _ => none

/-- Commands have this tag. -/
def Tagged (tag : Tag) (e : ServerEvent) : Prop := ∀ t, e.tag? = some t → t = tag

theorem serverHeard_append (S S' : List SItem) : serverHeard (S ++ S') = serverHeard S ++ serverHeard S' :=
  List.filterMap_append

/-- The tags in the bookkeeping are those of commands that were heard. -/
theorem serverDialogue_tagged {tag : Tag} {S : List SItem} (h : ∀ e ∈ serverHeard S, Tagged tag e) :
    (∀ t, (serverDialogue S).running = some t → t = tag) ∧ ∀ t ∈ (serverDialogue S).completed, t = tag := by
  induction S using snocInduction with
  | nil => exact ⟨nofun, nofun⟩
  | snoc S i ih =>
    rw [serverHeard_append] at h
    obtain ⟨h1, h2⟩ := ih fun e he => h e (List.mem_append_left _ he)
    rw [serverDialogue_snoc]
    cases i with
    | received w e =>
      have ht : Tagged tag e := h e (List.mem_append_right _ (by simp [serverHeard, SItem.heard?]))
      rw [ServerDialogue.observe_received]
      refine ⟨?_, fun t hm => ?_⟩
      · cases e <;> first
          | exact h1
          | (intro t hr; cases hr; done)
          | (intro t hr; cases hr; exact ht _ rfl)
      · rcases ServerDialogue.hear_completed hm with hm | ⟨c, rfl, rfl⟩ | ⟨-, hr⟩
        · exact h2 t hm
        · exact ht _ rfl
        · exact h1 t hr
    | authContinue q r => cases r <;> exact ⟨h1, h2⟩
    | authFinish st r => cases r <;> first | exact ⟨h1, h2⟩ | exact ⟨nofun, h2⟩
    | idleReject st r => cases r <;> first | exact ⟨h1, h2⟩ | exact ⟨nofun, h2⟩
    | _ => exact ⟨h1, h2⟩

/-- The response has no other tag. -/
def Response.Tagged (tag : Tag) (r : Response) : Prop := ∀ t body, r = .status (.tagged t body) → t = tag

/-- The user of an orderly server uses only the tags of the commands that were heard. -/
theorem OrderlyServer.tagged {tag : Tag} {S : List SItem} (hO : OrderlyServer S) (h : ∀ e ∈ serverHeard S, ImapFlow.Tagged tag e)
    {i : SItem} (hi : i ∈ S) {hd : RawHandle} {r : Response} (hm : .response (some hd) r ∈ i.enqueues) (ho : i.op? ≠ none) :
    r.Tagged tag := by
  obtain ⟨S1, S2, rfl⟩ := List.append_of_mem hi
  have ha := hO S1 i S2 rfl
  rw [serverHeard_append] at h
  obtain ⟨h1, h2⟩ := serverDialogue_tagged fun e he => h e (List.mem_append_left _ he)
  intro t body hr
  subst hr
  cases i with
  | enqueue h' r' =>
    cases List.mem_singleton.1 hm
    exact h2 t ha
  | authContinue q res => cases res <;> cases hm; rename_i hm; cases hm
  | idleAccept q res => cases res <;> cases hm; rename_i hm; cases hm
  | authFinish st res =>
    cases res with
    | error _ => cases hm
    | ok _ =>
      cases List.mem_singleton.1 hm
      obtain ⟨-, t', body', h3, h4⟩ := ha
      cases h4
      exact h1 t h3
  | idleReject st res =>
    cases res with
    | error _ => cases hm
    | ok _ =>
      cases List.mem_singleton.1 hm
      obtain ⟨t', body', h3, h4⟩ := ha
      cases h4
      exact h1 t h3
  | _ => exact (ho rfl).elim

/-- What has this shape, and has no other tag, is understood. -/
def SItem.Clear (L : Lib) (tag : Tag) (i : SItem) : Prop :=
  i.op? ≠ none ∧ ∀ hd r, .response (some hd) r ∈ i.enqueues → r.Tagged tag → (ServerMessage.response (some hd) r).RoundTrip L .default

theorem ClearServer.of_shape {tag : Tag} {S : List SItem} {shape : SItem → Prop} (hg : (ServerMessage.greeting gr).RoundTrip L .default)
    (ha : ∀ mode, ∀ m ∈ acceptReply L os mode, m.RoundTrip L .default) (hs : Shapely shape S)
    (hc : ∀ i, shape i → i.Clear L tag) (hO : OrderlyServer S) (h : ∀ e ∈ serverHeard S, Tagged tag e) :
    ClearServer L .default os gr S := by
  refine ⟨hg, fun hd r hm => ?_, ha⟩
  unfold serverMessages at hm
  rcases List.mem_cons.mp hm with hm | hm
  · cases hm
  · obtain ⟨i, hi, hmi⟩ := List.mem_flatMap.mp hm
    obtain ⟨h1, h2⟩ := hc i ((hs i hi).2 hd r hmi)
    exact h2 hd r hmi (hO.tagged h hi hmi h1)

/-! ## What a client says -/

/-- What a client says: its commands, data that its user supplied, and DONE. -/
theorem ClientView.said_mem {A : List CItem} {e : ServerEvent} (he : e ∈ (ClientView.of A).said) :
    (∃ x ∈ clientEnqueued A, e = x.2.event) ∨ (∃ a ∈ A.filterMap CItem.data?, e = .authenticateDataReceived a) ∨
      e = .idleDoneReceived := by
  have hen := (ClientView.of_fields A).2.2.1
  obtain ⟨hd1, hd2⟩ := ClientView.datas_supplied A
  have cmd : ∀ x ∈ (ClientView.of A).enqueued, ∃ y ∈ clientEnqueued A, x.2.event = y.2.event := by
    intro x hx
    exact ⟨x, by rw [← hen]; exact hx, rfl⟩
  rcases List.mem_append.mp he with he | he
  · obtain ⟨⟨x, en⟩, hm, he⟩ := List.mem_flatMap.mp he
    obtain ⟨hx, hen'⟩ := List.of_mem_zip hm
    simp only [saidEnded, List.cons_append, List.mem_cons, List.mem_append, List.mem_map] at he
    rcases he with rfl | ⟨a, ha, rfl⟩ | he
    · exact .inl (cmd x hx)
    · exact .inr (.inl ⟨a, hd2 en hen' a ha, rfl⟩)
    · split at he
      · exact .inr (.inr (List.mem_singleton.mp he))
      · cases he
  · split at he
    · rename_i x hc
      obtain ⟨q, hq⟩ := ClientView.remaining_of_current hc
      have hx : x ∈ (ClientView.of A).enqueued := List.mem_of_mem_drop (by
        show x ∈ (ClientView.of A).remaining; rw [hq]; simp)
      simp only [ClientView.saidNow, List.cons_append, List.mem_cons, List.mem_append, List.mem_map] at he
      rcases he with rfl | ⟨a, ha, rfl⟩ | he
      · exact .inl (cmd x hx)
      · exact .inr (.inl ⟨a, hd1 a ha, rfl⟩)
      · split at he
        · exact .inr (.inr (List.mem_singleton.mp he))
        · cases he
    · cases he

theorem Command.event_tag (c : Command) : c.event.tag? = some c.tag := by
  unfold Command.event
  split <;> rfl

end ImapFlow

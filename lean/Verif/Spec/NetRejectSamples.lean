import Verif.Spec.NetSamples

/-!
# A concrete run with a rejected literal
-/

namespace ImapFlow.NetSample

open ClientSample (str ln g of_map)
open ServerSample (options greeting)

/-- Two literals; the second one has five bytes, which is too long. -/
def cmdX : Command := ⟨str "X", .other (str "2\n\n\n\nabcde")⟩

def round (a b : Nat) : List NetOp :=
  [.client .next, .client .next, .deliverToServer a, .server .next, .server .next, .deliverToClient b]

/-- A command with two literals, one whose second literal is too long, one without a literal.  The user of
the server sends a tagged BAD for the first one while the second one is being transmitted. -/
def rejectOps : List NetOp :=
  [.client (.enqueueCommand cmdA), .client (.enqueueCommand cmdX), .client (.enqueueCommand cmdC)] ++
  round 3 4 ++ round 100 100 ++ round 100 100 ++ round 100 100 ++ round 100 100 ++ round 100 100 ++
  [.server (.enqueueStatus (.tagged (str "A") ⟨.bad, none, str "t"⟩))] ++
  round 3 100 ++ round 4 3 ++ round 5 100 ++ round 100 100 ++ round 100 4 ++ round 100 100

/-- The tagged BADs of the user of the server, checked from left to right. -/
def badOk : List Command → List NItem → Bool
  | _, [] => true
  | cs, .client _ :: T => badOk cs T
  | cs, .server i :: T =>
    (i.enqueues.all fun
      | .response (some _) (.status (.tagged tag body)) => body.kind != .bad || cs.any fun c => c.tag == tag
      | _ => true) && badOk (cs ++ i.command?.toList) T

theorem of_badOk {cs : List Command} {T : List NItem} (h : badOk cs T = true) {T1 T2 : List NItem} {i : SItem}
    {hd : RawHandle} {tag : Tag} {body : StatusBody} (hT : T = T1 ++ .server i :: T2)
    (hi : .response (some hd) (.status (.tagged tag body)) ∈ i.enqueues) (hb : body.kind = .bad) :
    ∃ c ∈ cs ++ serverCommands (serverItems T1), c.tag = tag := by
  induction T1 generalizing cs T with
  | nil =>
    subst hT
    simp only [List.nil_append, badOk, Bool.and_eq_true] at h
    have := List.all_eq_true.mp h.1 _ hi
    simp only [hb, bne_self_eq_false, Bool.false_or, List.any_eq_true, beq_iff_eq] at this
    simpa [serverCommands, serverItems] using this
  | cons j T1 ih =>
    subst hT
    cases j with
    | client j =>
      simp only [List.cons_append, badOk] at h
      exact ih h rfl
    | server j =>
      simp only [List.cons_append, badOk, Bool.and_eq_true] at h
      obtain ⟨c, h1, h2⟩ := ih h.2 rfl
      refine ⟨c, ?_, h2⟩
      have : serverCommands (serverItems (.server j :: T1)) = j.command?.toList ++ serverCommands (serverItems T1) := by
        simp only [serverItems, serverCommands, List.filterMap_cons, NItem.server?]
        cases j.command? <;> rfl
      rw [this, ← List.append_assoc]
      exact h1

/-- What happens in the run. -/
def RejectFacts (r : Net × List NItem) : Prop :=
  (clientEnqueued (clientItems r.2)).map (·.2) = [cmdA, cmdX, cmdC] ∧
  serverMessages greeting (serverItems r.2) =
    [.greeting greeting, .response none (.continuationRequest (.basic none (str "ok"))),
     .response none (.continuationRequest (.basic none (str "ok"))),
     .response none (.continuationRequest (.basic none (str "ok"))),
     .response (some (ServerSample.h 0)) (.status (.tagged (str "A") ⟨.bad, none, str "t"⟩)),
     .response none (.status (.tagged (str "X") ⟨.bad, none, str "no"⟩))] ∧
  clientTerminals (clientItems r.2) = [.commandSent ClientSample.hA cmdA,
    .commandRejected ClientSample.hB cmdX (.tagged (str "X") ⟨.bad, none, str "no"⟩),
    .commandSent ClientSample.hC cmdC] ∧
  badOk [] r.2 = true ∧ r.1.toClient = [] ∧ r.1.toServer = [] ∧
  starves (r.1.client.next Toy.lib) = true ∧ starves (r.1.server.next Toy.lib) = true

instance : DecidablePred RejectFacts := fun _ => by unfold RejectFacts; infer_instance

theorem reject_run : ∃ n T, start.run Toy.lib rejectOps = .ok (n, T) ∧ RejectFacts (n, T) := by
  obtain ⟨⟨n, T⟩, h⟩ := of_check (x := start.run Toy.lib rejectOps) (P := RejectFacts) (by decide +kernel)
  exact ⟨n, T, h⟩

/-- All messages of the server in the samples can be received. -/
theorem known_messages : ∀ m ∈ [ServerMessage.greeting greeting,
     .response none (.continuationRequest (.basic none (str "ok"))),
     .response (some (ServerSample.h 0)) (.status (.tagged (str "A") ⟨.bad, none, str "t"⟩)),
     .response none (.status (.tagged (str "X") ⟨.bad, none, str "no"⟩))], m.RoundTrip Toy.lib .default := by
  have hok : IsMessage (responseFraming Toy.lib false) (str "+ok" ++ [CR, LF])
    (.continuationRequest (.basic none (str "ok"))) := line_message (by decide +kernel) (by decide +kernel)
  have ha : IsMessage (responseFraming Toy.lib false) (str "bA t" ++ [CR, LF])
    (.status (.tagged (str "A") ⟨.bad, none, str "t"⟩)) := line_message (by decide +kernel) (by decide +kernel)
  have hx : IsMessage (responseFraming Toy.lib false) (str "bX no" ++ [CR, LF])
    (.status (.tagged (str "X") ⟨.bad, none, str "no"⟩)) := line_message (by decide +kernel) (by decide +kernel)
  have hg : IsMessage (greetingFraming Toy.lib false) (str "Ghi" ++ [CR, LF]) greeting :=
    line_message (by decide +kernel) (by decide +kernel)
  simp only [List.mem_cons, List.not_mem_nil, or_false, forall_eq_or_imp, forall_eq]
  exact ⟨hg, hok, ha, hx⟩

theorem reject_messages {r : Net × List NItem} (h : RejectFacts r) :
    ∀ m ∈ serverMessages greeting (serverItems r.2), m.RoundTrip Toy.lib .default := by
  rw [h.2.1]
  intro m hm
  refine known_messages m ?_
  simp only [List.mem_cons, List.not_mem_nil, or_false] at hm ⊢
  rcases hm with h | h | h | h | h | h <;> simp [h]

theorem reject_polite {r : Net × List NItem} (h : RejectFacts r) : PoliteServer greeting r.2 := by
  refine ⟨?_, ?_⟩
  · intro hd q
    rw [h.2.1]
    simp
  · intro T1 i T2 hd tag body hT hi hb
    have := of_badOk h.2.2.2.1 hT hi hb
    simpa using this

theorem roundTripX : cmdX.RoundTrip Toy.lib options := by
  have line : ∀ b : Bytes, LF ∉ b → IsLine (b ++ [CR, LF]) ∧ CrlfOk false (b ++ [CR, LF]) := by
    intro b hb
    refine ⟨⟨b ++ [CR], by simp, ?_⟩, .inr ⟨b, rfl⟩⟩
    simp only [List.mem_append, List.mem_singleton, not_or]
    exact ⟨hb, by decide⟩
  have e1 := line (str "X{xxxx") (by decide +kernel)
  have e2 := line (str " {xxxxx") (by decide +kernel)
  have e3 := line [] (by decide +kernel)
  refine CommandEncodes.literal (l := str "X{xxxx" ++ [CR, LF]) (d := [10, 10, 10, 10]) (mode := .sync) e1.1 e1.2
    (by decide +kernel) ?_
  refine CommandEncodes.literal (l := str " {xxxxx" ++ [CR, LF]) (d := str "abcde") (mode := .sync) e2.1 e2.2
    (by decide +kernel) ?_
  exact CommandEncodes.last (l := [] ++ [CR, LF]) e3.1 e3.2 (by decide +kernel)

theorem mixed_commands {E : List (RawHandle × Command)} (h : E.map (·.2) = [cmdA, cmdX, cmdC]) :
    MixedCommands Toy.lib options E := by
  have hx : ∀ x ∈ E, x.2 ∈ [cmdA, cmdX, cmdC] := by
    intro x hx
    rw [← h]
    exact List.mem_map.mpr ⟨x, hx, rfl⟩
  have key : ∀ c ∈ [cmdA, cmdX, cmdC], c.isRegular = true ∧ c.RoundTrip Toy.lib options ∧
      (wire (c.transmitted Toy.lib options)).length ≤ options.maxCommandSize ∧
      ∀ d, .literal d .nonSync ∈ Toy.lib.encodeCommand c → d.length ≤ options.maxLiteralSize := by
    intro c hc
    have hs : ∀ c ∈ [cmdA, cmdX, cmdC], (Toy.lib.encodeCommand c).all (fun f => match f with
        | .literal _ .nonSync => false
        | _ => true) = true := by decide +kernel
    have hs := hs c hc
    have hl : ∀ c ∈ [cmdA, cmdX, cmdC], (wire (c.transmitted Toy.lib options)).length ≤ options.maxCommandSize := by
      decide +kernel
    refine ⟨?_, ?_, hl c hc, fun d hd => by simpa using List.all_eq_true.mp hs _ hd⟩
    · simp only [List.mem_cons, List.not_mem_nil, or_false] at hc
      rcases hc with rfl | rfl | rfl <;> rfl
    · simp only [List.mem_cons, List.not_mem_nil, or_false] at hc
      rcases hc with rfl | rfl | rfl
      · exact (commands_ok cmdA (by simp)).2.1
      · exact roundTripX
      · exact (commands_ok cmdC (by simp)).2.1
  refine ⟨fun x h => (key _ (hx x h)).1, fun x h => (key _ (hx x h)).2.1, fun x h => (key _ (hx x h)).2.2.1,
    fun x h => (key _ (hx x h)).2.2.2, ?_⟩
  have : (E.map fun x => x.2.tag) = [cmdA, cmdX, cmdC].map Command.tag := by
    rw [← h, List.map_map]
    rfl
  rw [this]
  decide +kernel

theorem reject_commands {r : Net × List NItem} (h : RejectFacts r) :
    MixedCommands Toy.lib options (clientEnqueued (clientItems r.2)) := mixed_commands h.1

end ImapFlow.NetSample

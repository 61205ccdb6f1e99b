import Verif.Spec.Net
import Verif.Spec.ServerSamples

/-!
# Concrete runs of a connected client and server
-/

namespace ImapFlow.NetSample

open ClientSample (str ln g of_map)
open ServerSample (options greeting)

def cmdA : Command := ⟨str "A", .other (str "2\n\nz")⟩
def cmdB : Command := ⟨str "B", .other (ln "!")⟩
def cmdC : Command := ⟨str "C", .other (str "z")⟩

/-- Two commands with literals (two synchronizing, one non-synchronizing) and one without; everything is
fragmented, the server answers in between and its user sends an unsolicited continuation request. -/
def ops : List NetOp :=
  [.client (.enqueueCommand cmdA), .client (.enqueueCommand cmdB), .server .next, .client .next,
   .deliverToClient 2, .client .next, .deliverToClient 9, .client .next, .client .next, .server .next,
   .deliverToServer 3, .server .next, .deliverToServer 3, .server .next, .server .next,
   .server (.enqueueData (.other (str "d"))), .server .next, .server .next,
   .client (.enqueueCommand cmdC), .deliverToClient 7, .client .next, .deliverToServer 100, .server .next,
   .server .next, .deliverToClient 100, .client .next, .client .next, .client .next,
   .client .next, .client .next, .client .next, .client .next,
   .server (.enqueueContinuationRequest (.basic none (str "x"))), .server .next, .server .next,
   .deliverToServer 14, .server .next, .deliverToServer 100, .server .next, .server .next, .server .next,
   .deliverToClient 100, .client .next, .client .next, .client .next, .server .next]

/-- The run of `ops`. -/
def start : Net := Net.new g .default g options greeting

theorem of_check {ε α : Type} {x : Except ε α} {P : α → Prop} [DecidablePred P]
    (h : (x.map fun r => decide (P r)) = .ok true) : ∃ r, x = .ok r ∧ P r := by
  cases x with
  | error e => cases h
  | ok r =>
    simp only [Except.map, Except.ok.injEq, decide_eq_true_eq] at h
    exact ⟨r, rfl, h⟩

/-- What happens in the run of `ops`. -/
def Facts (r : Net × List NItem) : Prop :=
  (clientEnqueued (clientItems r.2)).map (·.2) = [cmdA, cmdB, cmdC] ∧
  serverCommands (serverItems r.2) = [cmdA, cmdB, cmdC] ∧
  serverMessages greeting (serverItems r.2) =
    [.greeting greeting, .response none (.continuationRequest (.basic none (str "ok"))),
     .response (some (ServerSample.h 0)) (.data (.other (str "d"))),
     .response none (.continuationRequest (.basic none (str "ok"))),
     .response (some (ServerSample.h 1)) (.continuationRequest (.basic none (str "x")))] ∧
  clientDecoded Toy.lib (clientItems r.2) = (serverMessages greeting (serverItems r.2)).map ServerMessage.content ∧
  clientTerminals (clientItems r.2) = [.commandSent ClientSample.hA cmdA, .commandSent ClientSample.hB cmdB,
    .commandSent ClientSample.hC cmdC] ∧
  r.1.toClient = [] ∧ r.1.toServer = []

instance : DecidablePred Facts := fun _ => by unfold Facts; infer_instance

theorem run : ∃ n T, start.run Toy.lib ops = .ok (n, T) ∧ Facts (n, T) := by
  obtain ⟨⟨n, T⟩, h⟩ := of_check (x := start.run Toy.lib ops) (P := Facts) (by decide +kernel)
  exact ⟨n, T, h⟩

/-- A line on its own is a message if it decodes. -/
theorem line_message {ε μ : Type} {F : Framing ε μ} {b : Bytes} {m : μ} (h : F.dec (b ++ [CR, LF]) = .ok ([], m))
    (hb : LF ∉ b) : IsMessage F (b ++ [CR, LF]) m := by
  refine ⟨[], b ++ [CR, LF], rfl, .nil, ⟨b ++ [CR], by simp, ?_⟩, .inr ⟨b, rfl⟩, h⟩
  simp only [List.mem_append, List.mem_singleton, not_or]
  exact ⟨hb, by decide⟩

/-- The messages of the server in this run are decoded to themselves. -/
theorem messages_roundTrip {r : Net × List NItem} (h : Facts r) :
    ∀ m ∈ serverMessages greeting (serverItems r.2), m.RoundTrip Toy.lib .default := by
  rw [h.2.2.1]
  have hok : IsMessage (responseFraming Toy.lib false) (str "+ok" ++ [CR, LF])
    (.continuationRequest (.basic none (str "ok"))) := line_message (by decide +kernel) (by decide +kernel)
  have hx : IsMessage (responseFraming Toy.lib false) (str "+x" ++ [CR, LF])
    (.continuationRequest (.basic none (str "x"))) := line_message (by decide +kernel) (by decide +kernel)
  have hd : IsMessage (responseFraming Toy.lib false) (str "*d" ++ [CR, LF])
    (.data (.other (str "d"))) := line_message (by decide +kernel) (by decide +kernel)
  have hg : IsMessage (greetingFraming Toy.lib false) (str "Ghi" ++ [CR, LF]) greeting :=
    line_message (by decide +kernel) (by decide +kernel)
  simp only [List.mem_cons, List.not_mem_nil, or_false, forall_eq_or_imp, forall_eq]
  exact ⟨hg, hok, hd, hok, hx⟩

/-- The commands of this run are decoded to themselves and respect the limits. -/
theorem commands_ok : ∀ c ∈ [cmdA, cmdB, cmdC],
    c.isRegular = true ∧ c.RoundTrip Toy.lib options ∧ c.Fits Toy.lib options := by
  have line : ∀ b : Bytes, LF ∉ b → IsLine (b ++ [CR, LF]) ∧ CrlfOk false (b ++ [CR, LF]) := by
    intro b hb
    refine ⟨⟨b ++ [CR], by simp, ?_⟩, .inr ⟨b, rfl⟩⟩
    simp only [List.mem_append, List.mem_singleton, not_or]
    exact ⟨hb, by decide⟩
  have fits : ∀ c ∈ [cmdA, cmdB, cmdC], c.Fits Toy.lib options := by
    intro c hc
    have hlit : ∀ fs : List Fragment, (fs.all fun f => match f with
        | .literal d _ => decide (d.length ≤ options.maxLiteralSize)
        | .line _ => true) = true →
        ∀ d mode, Fragment.literal d mode ∈ fs → d.length ≤ options.maxLiteralSize := by
      intro fs h d mode hm
      have := List.all_eq_true.mp h _ hm
      simpa using this
    simp only [List.mem_cons, List.not_mem_nil, or_false] at hc
    rcases hc with rfl | rfl | rfl
    · exact ⟨by decide +kernel, hlit _ (by decide +kernel)⟩
    · exact ⟨by decide +kernel, hlit _ (by decide +kernel)⟩
    · exact ⟨by decide +kernel, hlit _ (by decide +kernel)⟩
  have e1 := line (str "A{x") (by decide +kernel)
  have e2 := line (str " {xx") (by decide +kernel)
  have e3 := line [] (by decide +kernel)
  have e4 := line (str "B{+xx") (by decide +kernel)
  have e5 := line (str "C Cz") (by decide +kernel)
  have hA : cmdA.RoundTrip Toy.lib options := by
    refine CommandEncodes.literal (l := str "A{x" ++ [CR, LF]) (d := [10]) (mode := .sync) e1.1 e1.2
      (by decide +kernel) ?_
    refine CommandEncodes.literal (l := str " {xx" ++ [CR, LF]) (d := str "\nz") (mode := .sync) e2.1 e2.2
      (by decide +kernel) ?_
    exact CommandEncodes.last (l := [] ++ [CR, LF]) e3.1 e3.2 (by decide +kernel)
  have hB : cmdB.RoundTrip Toy.lib options := by
    refine CommandEncodes.literal (l := str "B{+xx" ++ [CR, LF]) (d := [CR, LF]) (mode := .nonSync) e4.1 e4.2
      (by decide +kernel) ?_
    exact CommandEncodes.last (l := [] ++ [CR, LF]) e3.1 e3.2 (by decide +kernel)
  have hC : cmdC.RoundTrip Toy.lib options :=
    CommandEncodes.last (l := str "C Cz" ++ [CR, LF]) e5.1 e5.2 (by decide +kernel)
  intro c hc
  have hf := fits c hc
  simp only [List.mem_cons, List.not_mem_nil, or_false] at hc
  rcases hc with rfl | rfl | rfl
  · exact ⟨rfl, hA, hf⟩
  · exact ⟨rfl, hB, hf⟩
  · exact ⟨rfl, hC, hf⟩

theorem goodCommands {r : Net × List NItem} (hf : Facts r) : GoodCommands Toy.lib options (clientItems r.2) := by
  have hx : ∀ x ∈ clientEnqueued (clientItems r.2), x.2 ∈ [cmdA, cmdB, cmdC] := by
    intro x hx
    rw [← hf.1]
    exact List.mem_map.mpr ⟨x, hx, rfl⟩
  refine ⟨fun x h => (commands_ok _ (hx x h)).1, fun x h => (commands_ok _ (hx x h)).2.1,
    fun x h => (commands_ok _ (hx x h)).2.2, ?_⟩
  intro hd cmd st hm
  rw [hf.2.2.2.2.1] at hm
  simp at hm

/-- The call asks for input. -/
def starves {σ ε α : Type} : Res σ ε α → Bool
  | .ok (_, .error (.io .needMoreInput)) => true
  | _ => false

theorem of_starves {σ ε α : Type} {r : Res σ ε α} (h : starves r = true) :
    ∃ s, r = .ok (s, .error (.io .needMoreInput)) := by
  unfold starves at h
  split at h
  · exact ⟨_, rfl⟩
  · cases h

/-- At the end nothing more happens. -/
theorem run_stuck : ∃ n T, start.run Toy.lib ops = .ok (n, T) ∧ Facts (n, T) ∧ n.Stuck Toy.lib := by
  obtain ⟨⟨n, T⟩, h, hf, h1, h2⟩ := of_check (x := start.run Toy.lib ops)
    (P := fun r => Facts r ∧ starves (r.1.client.next Toy.lib) = true ∧ starves (r.1.server.next Toy.lib) = true)
    (by decide +kernel)
  exact ⟨n, T, h, hf, hf.2.2.2.2.2.2, hf.2.2.2.2.2.1, of_starves h1, of_starves h2⟩

end ImapFlow.NetSample

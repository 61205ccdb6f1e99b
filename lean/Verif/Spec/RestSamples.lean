import Verif.Spec.Rest
import Verif.Spec.DialogueSamples

/-!
# Concrete systems whose users stop
-/

namespace ImapFlow.RestSample

open ClientSample (str)
open ServerSample (options greeting)
open NetSample (start cmdA cmdC of_check line_message)
open DialogueSample (authB Fair orderly of_orderly messages_fair client_fair)

/-- Two commands, one with literals; nothing was sent yet, and the server has something to say. -/
def opsA : List NetOp :=
  [.client (.enqueueCommand cmdA), .client (.enqueueCommand cmdC), .server (.enqueueData (.other (str "d")))]

/-- An AUTHENTICATE waits behind a command whose literal was announced. -/
def opsB : List NetOp :=
  [.client (.enqueueCommand cmdA), .client (.enqueueCommand authB), .client (.enqueueCommand cmdC), .server .next,
   .deliverToClient 100, .client .next, .client .next, .deliverToServer 3]

/-- The system still has to do something, and the assumptions hold. -/
def Unfinished (r : Net × List NItem) : Prop :=
  Fair r.2 ∧ orderly { running := none, asked := 0, completed := [] } (serverItems r.2) = true ∧
  serverHeard (serverItems r.2) = []

instance : DecidablePred Unfinished := fun _ => by unfold Unfinished; infer_instance

theorem clear {T : List NItem} (h : Fair T) : ClearServer Toy.lib .default options greeting (serverItems T) := by
  have hm := messages_fair h
  refine ⟨hm _ (by simp [serverMessages]), fun hd r hr => hm _ hr, fun mode m hx => ?_⟩
  cases mode with
  | nonSync => exact absurd hx (List.not_mem_nil (a := m))
  | sync =>
    have e : acceptReply Toy.lib options .sync = [.response none (.continuationRequest (.basic none (str "ok")))] := by
      decide +kernel
    rw [e, List.mem_singleton] at hx
    subst hx
    exact (line_message (by decide +kernel) (by decide +kernel) : IsMessage (responseFraming Toy.lib false) (str "+ok" ++ [CR, LF])
      (.continuationRequest (.basic none (str "ok"))))

theorem hypotheses {T : List NItem} {n : Net} (h : Unfinished (n, T)) :
    ClearServer Toy.lib .default options greeting (serverItems T) ∧
    FairClient Toy.lib options (clientItems T) ∧ OrderlyServer (serverItems T) :=
  ⟨clear h.1, client_fair h.1, of_orderly h.2.1⟩

theorem runA : ∃ n T, start.run Toy.lib opsA = .ok (n, T) ∧ Unfinished (n, T) ∧
    (clientEnqueued (clientItems T)).map (·.2) = [cmdA, cmdC] := by
  obtain ⟨⟨n, T⟩, h⟩ := of_check (x := start.run Toy.lib opsA)
    (P := fun r => Unfinished r ∧ (clientEnqueued (clientItems r.2)).map (·.2) = [cmdA, cmdC]) (by decide +kernel)
  exact ⟨n, T, h⟩

theorem runB : ∃ n T, start.run Toy.lib opsB = .ok (n, T) ∧ Unfinished (n, T) ∧ n.toServer ≠ [] := by
  obtain ⟨⟨n, T⟩, h⟩ := of_check (x := start.run Toy.lib opsB)
    (P := fun r => Unfinished r ∧ r.1.toServer ≠ []) (by decide +kernel)
  exact ⟨n, T, h⟩

end ImapFlow.RestSample

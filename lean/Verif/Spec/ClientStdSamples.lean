import Verif.Spec.ClientStd
import Verif.Spec.ExampleSamples

/-!
# Concrete runs of the example client without a stream
-/

namespace ImapFlow

namespace StdSample

open ClientSample (str ln g)

/-- The greeting arrives in two portions, LOGIN is sent and answered with BAD. -/
def acts : List StdAct :=
  [.next, .read (str "Gh"), .next, .read (ln "i"), .next, .next, .wrote, .next, .next, .read (ln "bA1 no"), .next, .next]

def items : List StdItem :=
  [.starved, .read (str "Gh"), .starved, .read (ln "i"), .event ExampleSample.greeted,
    .called (.enqueueCommand (Examples.loginCommand (str "x"))), .output (ln "A1 Cx"), .written (ln "A1 Cx"),
    .event (.commandSent ExampleSample.hd (Examples.loginCommand (str "x"))), .starved, .read (ln "bA1 no"),
    .event (.statusReceived (.tagged (str "A1") { kind := .bad, code := none, text := str "no" })), .starved]

/-- The state and the items of a run. -/
def result (as : List StdAct) : Option (StdCtl × List StdItem) :=
  ((StdClient.start g).run Toy.lib (str "x") as).map fun (x, T) => (x.ctl, T)

theorem of_result {as : List StdAct} {ctl : StdCtl} {T : List StdItem} (h : result as = some (ctl, T)) :
    ∃ x, StdRuns Toy.lib g (str "x") x T ∧ x.ctl = ctl := by
  unfold result at h
  cases hr : (StdClient.start g).run Toy.lib (str "x") as with
  | none => rw [hr] at h; cases h
  | some y => rw [hr] at h; cases h; exact ⟨y.1, ⟨as, hr⟩, rfl⟩

theorem acts_eq : result acts = some (.reading, items) := by decide +kernel

end StdSample

end ImapFlow

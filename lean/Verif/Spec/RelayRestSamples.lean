import Verif.Spec.RelayRest
import Verif.Spec.RelayDialogueSamples

/-!
# A concrete system with the proxy in between that comes to rest
-/

namespace ImapFlow.RelayDialogueSample

open ClientSample (str g)
open ServerSample (options)
open NetSample (cmdA cmdC)
open RelaySample (start plainStart greeting caps proxyOptions)

instance (wire : Bytes) (act : PollAct) : Decidable (act.Internal wire) := by
  cases act <;> (unfold PollAct.Internal; infer_instance)

instance (r : Relay Nat) (a : RelayAct) : Decidable (a.Internal r) := by
  cases a <;> (unfold RelayAct.Internal; infer_instance)

/-- Runs the system without its users. -/
def alone (r : Relay Nat) : List RelayAct → Option (Relay Nat × List RelayItem)
  | [] => some (r, [])
  | a :: as =>
    if a.Internal r then
      match r.step Toy.lib g a with
      | none => none
      | some (r, I) => (alone r as).map fun x => (x.1, I ++ x.2)
    else none

theorem unattended_of_alone {r r1 r2 : Relay Nat} {as : List RelayAct} {I1 I2 : List RelayItem}
    (hu : r.Unattended Toy.lib g r1 I1) (h : alone r1 as = some (r2, I2)) : r.Unattended Toy.lib g r2 (I1 ++ I2) := by
  induction as generalizing r1 I1 I2 with
  | nil => cases h; simpa using hu
  | cons a as ih =>
    simp only [alone] at h
    split at h
    · rename_i hi
      split at h
      · cases h
      · rename_i r3 I3 hs
        obtain ⟨⟨r4, I4⟩, h4, h5⟩ := Option.map_eq_some_iff.1 h
        cases h5
        have := ih (hu.snoc ⟨a, hi, hs⟩) h4
        rwa [List.append_assoc] at this
    · cases h

/-- Two commands were enqueued, one with a literal, and the server has something to say; nothing was sent yet. -/
def asked : List RelayAct :=
  [.client (.user (.enqueueCommand cmdA)), .client (.user (.enqueueCommand cmdC)), .server (.user (.enqueueData caps))]

def askedState : Relay Nat × List RelayItem := ((start.run Toy.lib g asked).getD (start, []))

def restState : Relay Nat × List RelayItem := ((alone askedState.1 (settle 500 askedState.1)).getD (start, []))

/-- The sockets of the proxy are open. -/
def Open (R : List RelayItem) : Prop :=
  (.proxy (.client (.read [])) ∉ R ∧ .proxy (.client (.wrote [])) ∉ R ∧ .proxy (.client .failed) ∉ R) ∧
  (.proxy (.server (.read [])) ∉ R ∧ .proxy (.server (.wrote [])) ∉ R ∧ .proxy (.server .failed) ∉ R)

instance : DecidablePred Open := fun _ => by unfold Open; infer_instance

theorem asked_run : start.run Toy.lib g asked = some askedState ∧
    (Suitable askedState.2 (clientTrace askedState.2) (serverTrace askedState.2) ∧ Open askedState.2) ∧
    askedState.1.client.ctl ≠ .at .reading ∧ relayedCommands askedState.2 = [cmdA, cmdC] :=
  ⟨StreamDialogueSample.some_getD (by decide +kernel) _, by decide +kernel⟩

theorem rest_run : alone askedState.1 (settle 500 askedState.1) = some restState ∧ Still restState.1 ∧
    (.client .refused ∉ restState.2 ∧ .server .refused ∉ restState.2 ∧ .proxy (.clientTls .refused) ∉ restState.2 ∧
      .proxy (.serverTls .refused) ∉ restState.2) :=
  ⟨StreamDialogueSample.some_getD (by decide +kernel) _, by decide +kernel⟩

theorem Still.atRest {r : Relay Nat} (h : Still r) : r.AtRest := by
  obtain ⟨⟨h1, h2, h3, h4⟩, h5, h6, c, s, h7, h8, h9⟩ := h.waiting
  refine ⟨⟨h5, h2⟩, ⟨h6, h3⟩, ?_⟩
  rw [h7]
  exact ⟨⟨h8, h1⟩, h9, h4⟩

/-- The system comes to rest. -/
theorem comes_to_rest : ∃ r R r' I, start.run Toy.lib g asked = some (r, R) ∧
    Suitable R (clientTrace R) (serverTrace R) ∧ RelayOpen R ∧ ¬ r.AtRest ∧ relayedCommands R = [cmdA, cmdC] ∧
    r.Unattended Toy.lib g r' I ∧ RelayAccepted I ∧ r'.AtRest := by
  obtain ⟨h1, ⟨h2, h3⟩, h4, h5⟩ := asked_run
  obtain ⟨h6, h7, h8⟩ := rest_run
  exact ⟨askedState.1, askedState.2, restState.1, restState.2, h1, h2, h3, fun h => h4 h.1.1, h5,
    unattended_of_alone (I1 := []) .nil h6, h8, h7.atRest⟩

end ImapFlow.RelayDialogueSample

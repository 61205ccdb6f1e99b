import Verif.Spec.Net

/-!
# Schedules without users

A schedule that lasts forever and only calls `next` and moves bytes, and that neglects nobody.
-/

namespace ImapFlow

/-- A step that no user asks for. -/
def NetOp.Internal : NetOp → Prop
  | .client .next | .server .next | .deliverToClient _ | .deliverToServer _ => True
  | _ => False

/-- Each of the two sides and each of the two channels gets its turn again and again. -/
structure FairSchedule (σ : Nat → NetOp) : Prop where
  internal : ∀ k, (σ k).Internal
  client : ∀ k, ∃ j, k ≤ j ∧ σ j = .client .next
  server : ∀ k, ∃ j, k ≤ j ∧ σ j = .server .next
  toClient : ∀ k, ∃ j m, k ≤ j ∧ 0 < m ∧ σ j = .deliverToClient m
  toServer : ∀ k, ∃ j m, k ≤ j ∧ 0 < m ∧ σ j = .deliverToServer m

/-- The first `k` steps of a schedule. -/
def firstSteps (σ : Nat → NetOp) (k : Nat) : List NetOp := (List.range k).map σ

/-- What the server says is understood by the client: its greeting, the responses of its user (they have a
handle), and the continuation request it sends for a literal. -/
structure ClearServer (L : Lib) (oc : ClientOptions) (os : ServerOptions) (gr : Greeting) (S : List SItem) : Prop where
  greeting : (ServerMessage.greeting gr).RoundTrip L oc
  user : ∀ h r, .response (some h) r ∈ serverMessages gr S → (ServerMessage.response (some h) r).RoundTrip L oc
  accepts : ∀ mode, ∀ m ∈ acceptReply L os mode, m.RoundTrip L oc

/-- Both sides and both channels in turn, one byte at a time. -/
def roundRobin (k : Nat) : NetOp :=
  match k % 4 with
  | 0 => .client .next
  | 1 => .server .next
  | 2 => .deliverToClient 1
  | _ => .deliverToServer 1

theorem roundRobin_fair : FairSchedule roundRobin := by
  refine ⟨fun k => ?_, fun k => ⟨4 * k, by omega, ?_⟩, fun k => ⟨4 * k + 1, by omega, ?_⟩,
    fun k => ⟨4 * k + 2, 1, by omega, by omega, ?_⟩, fun k => ⟨4 * k + 3, 1, by omega, by omega, ?_⟩⟩
  · unfold roundRobin
    split <;> trivial
  · simp [roundRobin]
  · simp [roundRobin, Nat.add_mod]
  · simp [roundRobin, Nat.add_mod]
  · simp [roundRobin, Nat.add_mod]

end ImapFlow

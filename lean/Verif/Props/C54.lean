import Verif.Proofs.RestDelivered
import Verif.Props.C37
import Verif.Spec.RestSamples

/-!
# C54: end to end, a system whose users stop comes to rest, and then everything was delivered

No schedule makes the system panic.  Once the users stop, every schedule that neglects neither side nor
channel leads to states in which nothing moves; there everything the client has said was heard, and every
answer was understood.  In contrast to C37 and C53 rest is not assumed, and of the messages of the server only
those its user chose and the continuation request for literals are assumed to be understood.
-/

namespace ImapFlow

variable {L : Lib} {gc gs : HandleGenerator} {oc : ClientOptions} {os : ServerOptions} {gr : Greeting}
  {ops : List NetOp} {n : Net} {T : List NItem} {σ : Nat → NetOp}

/-- No schedule leads to a panic. -/
theorem C54_no_panic (hL : L.Lawful) (hO : ServerOptions.Built L os) (ops : List NetOp) :
    ∃ n T, (Net.new gc oc gs os gr).run L ops = .ok (n, T) :=
  (Net.run_linked (ops := []) rfl).run_ok hL hO ops

/-- Without its users, the system comes to rest, whatever they did before. -/
theorem C54_rest (hL : L.Lawful) (h : (Net.new gc oc gs os gr).run L ops = .ok (n, T))
    (hO : ServerOptions.Built L os) (hmax : 0 < os.maxCommandSize) (hσ : FairSchedule σ) :
    ∃ k, ∀ j, k ≤ j → ∃ n' U, n.run L (firstSteps σ j) = .ok (n', U) ∧ n'.Stuck L := by
  obtain ⟨k, hk⟩ := (Net.run_linked h).rest hL hO hmax hσ
  refine ⟨k, fun j hj => ?_⟩
  obtain ⟨n', U, hr⟩ := (Net.run_linked h).run_ok hL hO (firstSteps σ j)
  exact ⟨n', U, hr, hk j n' U hj hr⟩

/-- Each side and each channel in turn, after any calls of the users. -/
example (ops : List NetOp) : ∃ n T, NetSample.start.run Toy.lib ops = .ok (n, T) ∧
    ∃ k, ∀ j, k ≤ j → ∃ n' U, n.run Toy.lib (firstSteps roundRobin j) = .ok (n', U) ∧ n'.Stuck Toy.lib := by
  obtain ⟨n, T, h⟩ := C54_no_panic Toy.lawful StreamNetSample.built ops
  exact ⟨n, T, h, C54_rest Toy.lawful h StreamNetSample.built (by decide) roundRobin_fair⟩

/-- A server that accepts commands of no length at all never lets the system rest: it reports errors forever. -/
theorem C54_busy (h : (Net.new gc oc gs os gr).run L ops = .ok (n, T)) (hz : os.maxCommandSize = 0) : ¬ n.Stuck L :=
  (Net.run_linked h).busy hz

/-- Such options can be built. -/
example : ServerOptions.Built Toy.lib { ServerSample.options with maxCommandSize := 0 } :=
  .maxCommandSize 0 StreamNetSample.built

/-- At rest, everything that was said was heard, all answers were understood, and both sides agree whose turn it
is. -/
theorem C54_delivered (hL : L.Lawful) (h : (Net.new gc oc gs os gr).run L ops = .ok (n, T))
    (hO : ServerOptions.Built L os) (hmax : 0 < os.maxCommandSize) (hC : ClearServer L oc os gr (serverItems T))
    (hF : FairClient L os (clientItems T)) (hP : OrderlyServer (serverItems T)) (hσ : FairSchedule σ) :
    ∃ k, ∀ j, k ≤ j → ∃ n' U, n.run L (firstSteps σ j) = .ok (n', U) ∧
      serverHeard (serverItems (T ++ U)) = (ClientView.of (clientItems (T ++ U))).said ∧
      clientAnswers (clientItems (T ++ U)) = serverAnswers (serverItems (T ++ U)) ∧
      Turn (ClientView.of (clientItems (T ++ U))) (serverPhase (serverItems (T ++ U)))
        (serverDialogue (serverItems (T ++ U))) := by
  obtain ⟨k, hk⟩ := C54_rest hL h hO hmax hσ
  refine ⟨k, fun j hj => ?_⟩
  obtain ⟨n', U, hr, hs⟩ := hk j hj
  obtain ⟨h1, -, h2, h3, h4⟩ := Net.Linked.unattended hL hO hmax h hC hF hP (firstSteps_internal hσ j) hr
  exact ⟨n', U, hr, (Net.run_linked h1).turn hL hO h2 hmax h3 h4 hs⟩

/-- An AUTHENTICATE and another command wait behind a command whose literal is just being announced. -/
example : ∃ n T, NetSample.start.run Toy.lib RestSample.opsB = .ok (n, T) ∧
    ClearServer Toy.lib .default ServerSample.options ServerSample.greeting (serverItems T) ∧
    FairClient Toy.lib ServerSample.options (clientItems T) ∧ OrderlyServer (serverItems T) ∧
    serverHeard (serverItems T) = [] ∧ ¬ n.Stuck Toy.lib := by
  obtain ⟨n, T, h, hu, hn⟩ := RestSample.runB
  obtain ⟨h1, h2, h3⟩ := RestSample.hypotheses hu
  exact ⟨n, T, h, h1, h2, h3, hu.2.2, fun hs => hn hs.1⟩

/-- If all commands are regular, each of them reaches the user of the server, in order, and is reported as sent. -/
theorem C54_commands (hL : L.Lawful) (h : (Net.new gc oc gs os gr).run L ops = .ok (n, T))
    (hO : ServerOptions.Built L os) (hmax : 0 < os.maxCommandSize) (hC : ClearServer L oc os gr (serverItems T))
    (hF : FairClient L os (clientItems T)) (hP : OrderlyServer (serverItems T))
    (hreg : ∀ x ∈ clientEnqueued (clientItems T), x.2.isRegular = true) (hσ : FairSchedule σ) :
    ∃ k, ∀ j, k ≤ j → ∃ n' U, n.run L (firstSteps σ j) = .ok (n', U) ∧
      serverCommands (serverItems (T ++ U)) = (clientEnqueued (clientItems T)).map (·.2) ∧
      clientTerminals (clientItems (T ++ U)) = (clientEnqueued (clientItems T)).map fun x => .commandSent x.1 x.2 := by
  obtain ⟨k, hk⟩ := C54_rest hL h hO hmax hσ
  refine ⟨k, fun j hj => ?_⟩
  obtain ⟨n', U, hr, hs⟩ := hk j hj
  obtain ⟨h1, h0, h2, h3, h4⟩ := Net.Linked.unattended hL hO hmax h hC hF hP (firstSteps_internal hσ j) hr
  obtain ⟨D, fl, ht⟩ := (Net.run_linked h1).together hL hO h2 hmax h3 h4 (List.append_nil _).symm
  obtain ⟨cops, hct⟩ := (Net.run_linked h1).client
  have := C37_no_deadlock hL h1 hO hmax h2 (ht.good hL hct h3 (by rw [h0]; exact hreg)) hs
  rw [h0] at this
  exact ⟨n', U, hr, this⟩

/-- Two commands were enqueued and nothing was sent yet: both are delivered when each side and each channel gets
its turn, one byte at a time. -/
example : ∃ n T, NetSample.start.run Toy.lib RestSample.opsA = .ok (n, T) ∧ serverHeard (serverItems T) = [] ∧
    ∃ k, ∀ j, k ≤ j → ∃ n' U, n.run Toy.lib (firstSteps roundRobin j) = .ok (n', U) ∧
      serverCommands (serverItems (T ++ U)) = [NetSample.cmdA, NetSample.cmdC] := by
  obtain ⟨n, T, h, hu, he⟩ := RestSample.runA
  obtain ⟨h1, h2, h3⟩ := RestSample.hypotheses hu
  have hreg : ∀ x ∈ clientEnqueued (clientItems T), x.2.isRegular = true := by
    intro x hx
    have : x.2 ∈ [NetSample.cmdA, NetSample.cmdC] := he ▸ List.mem_map_of_mem hx
    revert this
    generalize x.2 = c
    intro hc
    simp only [List.mem_cons, List.not_mem_nil, or_false] at hc
    rcases hc with rfl | rfl <;> rfl
  obtain ⟨k, hk⟩ := C54_commands Toy.lawful h StreamNetSample.built (by decide) h1 h2 h3 hreg roundRobin_fair
  refine ⟨n, T, h, hu.2.2, k, fun j hj => ?_⟩
  obtain ⟨n', U, hr, hd, -⟩ := hk j hj
  exact ⟨n', U, hr, by rw [hd, he]⟩

end ImapFlow

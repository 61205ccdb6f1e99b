import Verif.Spec.Rest
import Verif.Proofs.RestSides
import Verif.Proofs.StreamNet

/-!
# Without their users, client and server come to rest
-/

namespace ImapFlow

variable {L : Lib} {gc gs : HandleGenerator} {oc : ClientOptions} {os : ServerOptions} {gr : Greeting}
  {n n' : Net} {T U : List NItem}

namespace Net

/-! ## No panics -/

theorem Linked.step_ok (hL : L.Lawful) (hO : ServerOptions.Built L os) (h : Linked L gc oc gs os gr n T) (op : NetOp) :
    ∃ n' U, n.step L op = .ok (n', U) := by
  have hc : ∀ (n1 : Net) op, n1.client = n.client → ∃ n' U, n1.callClient L op = .ok (n', U) := by
    intro n1 op he
    obtain ⟨ops, h1⟩ := h.client
    obtain ⟨x, hx⟩ := Client.trace_safe hL (Client.new_inv L gc oc) (ops ++ [op])
    rw [Client.trace_append, h1] at hx
    unfold Net.callClient
    rw [he]
    cases hc : n.client.callTrace L op with
    | error p => simp [Client.trace, hc] at hx
    | ok y => exact ⟨_, _, rfl⟩
  have hs : ∀ (n1 : Net) op, n1.server = n.server → ∃ n' U, n1.callServer L op = .ok (n', U) := by
    intro n1 op he
    obtain ⟨ops, h1⟩ := h.server
    obtain ⟨x, hx⟩ := Server.trace_safe hL hO.usable (Server.new_inv L gs os gr) (ops ++ [op])
    rw [Server.trace_append, h1] at hx
    unfold Net.callServer
    rw [he]
    cases hc : n.server.callTrace L op with
    | error p => simp [Server.trace, hc] at hx
    | ok y => exact ⟨_, _, rfl⟩
  cases op with
  | client op =>
    cases op with
    | enqueueInput b => exact ⟨_, _, rfl⟩
    | _ => simp only [Net.step]; exact hc n _ rfl
  | server op =>
    cases op with
    | enqueueInput b => exact ⟨_, _, rfl⟩
    | _ => simp only [Net.step]; exact hs n _ rfl
  | deliverToClient k => exact hc _ _ rfl
  | deliverToServer k => exact hs _ _ rfl

theorem Linked.run_ok (hL : L.Lawful) (hO : ServerOptions.Built L os) (h : Linked L gc oc gs os gr n T) (ops : List NetOp) :
    ∃ n' U, n.run L ops = .ok (n', U) := by
  induction ops generalizing n T with
  | nil => exact ⟨_, _, rfl⟩
  | cons op ops ih =>
    obtain ⟨n1, U1, h1⟩ := h.step_ok hL hO op
    obtain ⟨n2, U2, h2⟩ := ih (h.step h1)
    exact ⟨n2, U1 ++ U2, by simp [Net.run, h1, h2]⟩

/-! ## The weight of the system -/

theorem Linked.unlimited (hL : L.Lawful) (h : Linked L gc oc gs os gr n T) : n.client.Unlimited := by
  obtain ⟨ops, h1⟩ := h.client
  obtain ⟨-, hi⟩ := Client.trace_inv hL h1
  unfold Client.Unlimited
  split at hi
  · rename_i s hs; rw [hs]; simp [hi.2.2.1]
  · rename_i s hs; rw [hs]; simp [hi.2.2.1]
  · exact hi.elim

theorem Linked.limited (hmax : 0 < os.maxCommandSize) (h : Linked L gc oc gs os gr n T) : n.server.Limited := by
  obtain ⟨ops, h1⟩ := h.server
  obtain ⟨-, -, hi⟩ := Server.trace_inv h1
  unfold Server.Limited
  have key : ∀ st : ReceiveState, st.maxMessageSize = some os.maxCommandSize → st.maxMessageSize ≠ some 0 := by
    intro st hs h0
    rw [hs, Option.some.injEq] at h0
    omega
  cases hr : n.server.receiveState with
  | command st => rw [hr] at hi; exact key _ hi.2.1.2.1
  | authenticateData st => rw [hr] at hi; exact key _ hi.2.1.2.1
  | idleAccept st => rw [hr] at hi; exact key _ hi.2.2.1
  | idleDone st => rw [hr] at hi; exact key _ hi.2.1.2.1
  | dummy => rw [hr] at hi; exact hi.elim

/-- What decreases in every step: first what the client still has to send, then what the server has to
read, then what the server has to send, then what the client has to read. -/
def weight (L : Lib) (n : Net) : Nat × Nat × Nat × Nat :=
  (n.client.sendState.weight L, 3 * n.toServer.length + n.server.inputWeight, n.server.sendState.weight,
    3 * n.toClient.length + n.client.inputWeight)

/-- Lexicographic order. -/
def Lighter (a b : Nat × Nat × Nat × Nat) : Prop :=
  Prod.Lex (· < ·) (Prod.Lex (· < ·) (Prod.Lex (· < ·) (· < ·))) a b

theorem lighter_wf : WellFounded Lighter :=
  (Prod.lex ⟨_, Nat.lt_wfRel.wf⟩ (Prod.lex ⟨_, Nat.lt_wfRel.wf⟩ (Prod.lex ⟨_, Nat.lt_wfRel.wf⟩ ⟨_, Nat.lt_wfRel.wf⟩))).wf

theorem lighter_iff {a b c d a' b' c' d' : Nat} : Lighter (a, b, c, d) (a', b', c', d') ↔
    a < a' ∨ (a = a' ∧ (b < b' ∨ (b = b' ∧ (c < c' ∨ (c = c' ∧ d < d'))))) := by
  simp only [Lighter, Prod.lex_def]

theorem Lighter.trans {x y z : Nat × Nat × Nat × Nat} (h : Lighter x y) (h' : Lighter y z) : Lighter x z := by
  obtain ⟨a, b, c, d⟩ := x
  obtain ⟨a', b', c', d'⟩ := y
  obtain ⟨a'', b'', c'', d''⟩ := z
  rw [lighter_iff] at *
  omega

/-- A step that does nothing but find out that there is nothing to do. -/
def Idle (L : Lib) (n n' : Net) : NetOp → Prop
  | .client .next => (∃ c, n.client.next L = .ok (c, .error (.io .needMoreInput))) ∧ n'.server = n.server
  | .server .next => (∃ s, n.server.next L = .ok (s, .error (.io .needMoreInput))) ∧ n'.client = n.client
  | .deliverToClient k => (n.toClient = [] ∨ k = 0) ∧ n' = n
  | .deliverToServer k => (n.toServer = [] ∨ k = 0) ∧ n' = n
  | _ => False

theorem serverOutput_starved : serverOutput [.starved] = [] := rfl

/-- A step without users spends weight, or there is nothing to do. -/
theorem Linked.step_weight (hL : L.Lawful) (hmax : 0 < os.maxCommandSize) (h : Linked L gc oc gs os gr n T) {op : NetOp}
    (hop : op.Internal) (hs : n.step L op = .ok (n', U)) :
    Lighter (n'.weight L) (n.weight L) ∨
      (n'.weight L = n.weight L ∧ n'.toServer = n.toServer ∧ n'.toClient = n.toClient ∧ Idle L n n' op) := by
  have hu := h.unlimited hL
  have hl := h.limited hmax
  have take_len : ∀ (b : Bytes) k, b = [] ∨ k = 0 ∨ 0 < (b.take k).length := by
    intro b k
    rw [List.length_take]
    cases b with
    | nil => exact .inl rfl
    | cons x b => simp only [List.length_cons]; omega
  cases op with
  | client op =>
    cases op with
    | next =>
      simp only [Net.step, Net.callClient, Client.callTrace] at hs
      cases hc : n.client.nextTrace L with
      | error p => rw [hc] at hs; cases hs
      | ok x =>
        obtain ⟨c, V⟩ := x
        rw [hc] at hs
        simp only [Except.ok.injEq, Prod.mk.injEq] at hs
        obtain ⟨rfl, -⟩ := hs
        obtain ⟨-, hw⟩ := Client.nextTrace_weight hu hc
        rcases hw with hw | ⟨w1, w2, w3⟩
        · left
          exact lighter_iff.mpr (.inl hw)
        · rw [w2, List.append_nil]
          rcases w3 with w3 | ⟨w3, rfl⟩
          · left
            refine lighter_iff.mpr ?_
            dsimp only
            omega
          · right
            refine ⟨by simp only [weight, w1, w3], rfl, rfl, ?_, rfl⟩
            have he := Client.nextTrace_erase L n.client
            rw [hc] at he
            cases hx : n.client.next L with
            | error p => rw [hx] at he; cases he
            | ok y =>
              rw [hx] at he
              obtain ⟨c', r⟩ := y
              simp only [Client.eraseRes, Except.map, Except.ok.injEq, Prod.mk.injEq] at he
              obtain ⟨rfl, he⟩ := he
              simp [CItem.erase] at he
              exact ⟨c, by rw [← he]⟩
    | _ => exact hop.elim
  | server op =>
    cases op with
    | next =>
      simp only [Net.step, Net.callServer, Server.callTrace] at hs
      cases hc : n.server.nextTrace L with
      | error p => rw [hc] at hs; cases hs
      | ok x =>
        obtain ⟨s, V⟩ := x
        rw [hc] at hs
        simp only [Except.ok.injEq, Prod.mk.injEq] at hs
        obtain ⟨rfl, -⟩ := hs
        obtain ⟨-, hw⟩ := Server.nextTrace_weight hl hc
        rcases hw with hw | ⟨w1, w2 | ⟨w2, rfl⟩⟩
        · left
          refine lighter_iff.mpr ?_
          dsimp only
          omega
        · left
          refine lighter_iff.mpr ?_
          dsimp only
          omega
        · right
          rw [serverOutput_starved, List.append_nil]
          refine ⟨by simp only [weight, w1, w2], rfl, rfl, ?_, rfl⟩
          have he := Server.nextTrace_erase L n.server
          rw [hc] at he
          cases hx : n.server.next L with
          | error p => rw [hx] at he; cases he
          | ok y =>
            rw [hx] at he
            obtain ⟨s', r⟩ := y
            simp only [Server.eraseRes, Except.map, Except.ok.injEq, Prod.mk.injEq] at he
            obtain ⟨rfl, he⟩ := he
            simp [SItem.erase] at he
            exact ⟨s, by rw [← he]⟩
    | _ => exact hop.elim
  | deliverToClient k =>
    simp only [Net.step, Net.callClient, Client.callTrace] at hs
    cases hc : n.client.enqueueInput (n.toClient.take k) with
    | error p => rw [hc] at hs; cases hs
    | ok c =>
      rw [hc] at hs
      simp only [Except.map, Except.ok.injEq, Prod.mk.injEq] at hs
      obtain ⟨rfl, -⟩ := hs
      have ho : clientOutput [.input (n.toClient.take k)] = [] := rfl
      rw [ho, List.append_nil]
      by_cases hk : n.toClient.take k = []
      · right
        rw [hk] at hc
        have hd : n.toClient.drop k = n.toClient := by
          have := List.take_append_drop k n.toClient
          rw [hk] at this
          exact this
        rw [Client.enqueueInput_nil hc, hd]
        refine ⟨rfl, rfl, rfl, ?_, rfl⟩
        rcases take_len n.toClient k with h | h | h
        · exact .inl h
        · exact .inr h
        · rw [hk] at h; simp at h
      · left
        obtain ⟨w1, w2, -⟩ := Client.enqueueInput_weight hc
        have hp := List.length_pos_iff.mpr hk
        have := congrArg List.length (List.take_append_drop k n.toClient)
        simp only [List.length_append] at this
        refine lighter_iff.mpr ?_
        dsimp only
        rw [w2]
        omega
  | deliverToServer k =>
    simp only [Net.step, Net.callServer, Server.callTrace] at hs
    cases hc : n.server.enqueueInput (n.toServer.take k) with
    | error p => rw [hc] at hs; cases hs
    | ok c =>
      rw [hc] at hs
      simp only [Except.map, Except.ok.injEq, Prod.mk.injEq] at hs
      obtain ⟨rfl, -⟩ := hs
      have ho : serverOutput [.input (n.toServer.take k)] = [] := rfl
      rw [ho, List.append_nil]
      by_cases hk : n.toServer.take k = []
      · right
        rw [hk] at hc
        have hd : n.toServer.drop k = n.toServer := by
          have := List.take_append_drop k n.toServer
          rw [hk] at this
          exact this
        rw [Server.enqueueInput_nil hc, hd]
        refine ⟨rfl, rfl, rfl, ?_, rfl⟩
        rcases take_len n.toServer k with h | h | h
        · exact .inl h
        · exact .inr h
        · rw [hk] at h; simp at h
      · left
        obtain ⟨w1, w2, -⟩ := Server.enqueueInput_weight hc
        have hp := List.length_pos_iff.mpr hk
        have := congrArg List.length (List.take_append_drop k n.toServer)
        simp only [List.length_append] at this
        refine lighter_iff.mpr ?_
        dsimp only
        rw [w2]
        omega

/-! ## Rest -/

theorem firstSteps_succ (σ : Nat → NetOp) (k : Nat) : firstSteps σ (k + 1) = firstSteps σ k ++ [σ k] := by
  simp [firstSteps, List.range_succ]

theorem firstSteps_add (σ : Nat → NetOp) (k j : Nat) :
    firstSteps σ (k + j) = firstSteps σ k ++ firstSteps (fun i => σ (k + i)) j := by
  simp [firstSteps, List.range_add, Function.comp_def]

theorem _root_.ImapFlow.FairSchedule.shift {σ : Nat → NetOp} (h : FairSchedule σ) (k : Nat) : FairSchedule fun i => σ (k + i) := by
  refine ⟨fun i => h.internal _, fun i => ?_, fun i => ?_, fun i => ?_, fun i => ?_⟩
  · obtain ⟨j, h1, h2⟩ := h.client (k + i)
    exact ⟨j - k, by omega, by rw [show k + (j - k) = j by omega]; exact h2⟩
  · obtain ⟨j, h1, h2⟩ := h.server (k + i)
    exact ⟨j - k, by omega, by rw [show k + (j - k) = j by omega]; exact h2⟩
  · obtain ⟨j, m, h1, h2, h3⟩ := h.toClient (k + i)
    exact ⟨j - k, m, by omega, h2, by rw [show k + (j - k) = j by omega]; exact h3⟩
  · obtain ⟨j, m, h1, h2, h3⟩ := h.toServer (k + i)
    exact ⟨j - k, m, by omega, h2, by rw [show k + (j - k) = j by omega]; exact h3⟩

theorem run_snoc {ops : List NetOp} {op : NetOp} {n1 n2 : Net} {U1 : List NItem} (h : n.run L ops = .ok (n1, U1))
    (h' : n.run L (ops ++ [op]) = .ok (n2, U)) : ∃ V, n1.step L op = .ok (n2, V) := by
  rw [run_append, h] at h'
  simp only [Net.run] at h'
  cases hs : n1.step L op with
  | error p => rw [hs] at h'; simp [Except.map] at h'
  | ok x =>
    obtain ⟨n3, V⟩ := x
    rw [hs] at h'
    simp only [Except.map, Except.ok.injEq, Prod.mk.injEq] at h'
    exact ⟨V, by rw [h'.1]⟩

/-- If no weight is ever spent, the system is at rest. -/
theorem Linked.stuck_of_const (hL : L.Lawful) (hO : ServerOptions.Built L os) (hmax : 0 < os.maxCommandSize)
    (h : Linked L gc oc gs os gr n T) {σ : Nat → NetOp} (hσ : FairSchedule σ)
    (hc : ∀ k n' U, n.run L (firstSteps σ k) = .ok (n', U) → ¬ Lighter (n'.weight L) (n.weight L)) : n.Stuck L := by
  have next : ∀ k n1 U1, n.run L (firstSteps σ k) = .ok (n1, U1) → n1.weight L = n.weight L →
      ∃ n2 U2, n.run L (firstSteps σ (k + 1)) = .ok (n2, U2) ∧
        (n2.weight L = n1.weight L ∧ n2.toServer = n1.toServer ∧ n2.toClient = n1.toClient ∧ Idle L n1 n2 (σ k)) := by
    intro k n1 U1 h1 hw
    obtain ⟨n2, U2, h2⟩ := h.run_ok hL hO (firstSteps σ (k + 1))
    refine ⟨n2, U2, h2, ?_⟩
    have h3 := h2
    rw [firstSteps_succ] at h3
    obtain ⟨V, hs⟩ := run_snoc h1 h3
    rcases (h.run h1).step_weight hL hmax (hσ.internal k) hs with hlt | hi
    · rw [hw] at hlt
      exact absurd hlt (hc _ _ _ h2)
    · exact hi
  have inv0 : ∀ k, ∃ n' U, n.run L (firstSteps σ k) = .ok (n', U) ∧ n'.weight L = n.weight L ∧
      n'.toServer = n.toServer ∧ n'.toClient = n.toClient ∧
      (n'.client = n.client ∨ ∃ c, n.client.next L = .ok (c, .error (.io .needMoreInput))) ∧
      (n'.server = n.server ∨ ∃ s, n.server.next L = .ok (s, .error (.io .needMoreInput))) := by
    intro k
    induction k with
    | zero => exact ⟨n, [], rfl, rfl, rfl, rfl, .inl rfl, .inl rfl⟩
    | succ k ih =>
      obtain ⟨n1, U1, h1, hw, h2, h3, h4, h5⟩ := ih
      obtain ⟨n2, U2, g1, g2, g3, g4, g5⟩ := next k n1 U1 h1 hw
      have hint := hσ.internal k
      generalize σ k = op at g5 hint
      refine ⟨n2, U2, g1, g2.trans hw, g3.trans h2, g4.trans h3, ?_⟩
      cases op with
      | client op =>
        cases op with
        | next =>
          refine ⟨.inr ?_, by rw [g5.2]; exact h5⟩
          rcases h4 with h4 | h4
          · rw [← h4]; exact g5.1
          · exact h4
        | _ => exact hint.elim
      | server op =>
        cases op with
        | next =>
          refine ⟨by rw [g5.2]; exact h4, .inr ?_⟩
          rcases h5 with h5 | h5
          · rw [← h5]; exact g5.1
          · exact h5
        | _ => exact hint.elim
      | deliverToClient m => rw [g5.2]; exact ⟨h4, h5⟩
      | deliverToServer m => rw [g5.2]; exact ⟨h4, h5⟩
  have inv : ∀ k, ∃ n' U, n.run L (firstSteps σ k) = .ok (n', U) ∧ n'.weight L = n.weight L ∧
      n'.toServer = n.toServer ∧ n'.toClient = n.toClient ∧
      (n'.client = n.client ∨ ∃ c, n.client.next L = .ok (c, .error (.io .needMoreInput))) ∧
      (n'.server = n.server ∨ ∃ s, n.server.next L = .ok (s, .error (.io .needMoreInput))) ∧
      ∃ n'', Idle L n' n'' (σ k) := by
    intro k
    obtain ⟨n1, U1, h1, hw, h2, h3, h4, h5⟩ := inv0 k
    obtain ⟨n2, U2, g1, g2, g3, g4, g5⟩ := next k n1 U1 h1 hw
    exact ⟨n1, U1, h1, hw, h2, h3, h4, h5, n2, g5⟩
  refine ⟨?_, ?_, ?_, ?_⟩
  · obtain ⟨j, m, -, hm, hj⟩ := hσ.toServer 0
    obtain ⟨n', U, -, -, h1, -, -, -, n'', hi⟩ := inv j
    rw [hj] at hi
    rw [← h1]
    rcases hi.1 with hi | hi
    · exact hi
    · omega
  · obtain ⟨j, m, -, hm, hj⟩ := hσ.toClient 0
    obtain ⟨n', U, -, -, -, h1, -, -, n'', hi⟩ := inv j
    rw [hj] at hi
    rw [← h1]
    rcases hi.1 with hi | hi
    · exact hi
    · omega
  · obtain ⟨j, -, hj⟩ := hσ.client 0
    obtain ⟨n', U, -, -, -, -, h1, -, n'', hi⟩ := inv j
    rw [hj] at hi
    rcases h1 with h1 | h1
    · rw [← h1]; exact hi.1
    · exact h1
  · obtain ⟨j, -, hj⟩ := hσ.server 0
    obtain ⟨n', U, -, -, -, -, -, h1, n'', hi⟩ := inv j
    rw [hj] at hi
    rcases h1 with h1 | h1
    · rw [← h1]; exact hi.1
    · exact h1

/-- Steps without users add no weight. -/
theorem Linked.run_weight (hL : L.Lawful) (hmax : 0 < os.maxCommandSize) (h : Linked L gc oc gs os gr n T)
    {ops : List NetOp} (hop : ∀ op ∈ ops, op.Internal) (hr : n.run L ops = .ok (n', U)) :
    Lighter (n'.weight L) (n.weight L) ∨ n'.weight L = n.weight L := by
  induction ops generalizing n T U with
  | nil => cases hr; exact .inr rfl
  | cons op ops ih =>
    simp only [Net.run] at hr
    cases h1 : n.step L op with
    | error p => rw [h1] at hr; cases hr
    | ok x =>
      obtain ⟨n1, U1⟩ := x
      rw [h1] at hr
      simp only at hr
      cases h2 : n1.run L ops with
      | error p => rw [h2] at hr; cases hr
      | ok y =>
        obtain ⟨n2, U2⟩ := y
        rw [h2] at hr
        cases hr
        have w1 := h.step_weight hL hmax (hop _ (by simp)) h1
        have w2 := ih (h.step h1) (fun op ho => hop op (by simp [ho])) h2
        rcases w1 with w1 | ⟨w1, -⟩
        · rcases w2 with w2 | w2
          · exact .inl (w2.trans w1)
          · exact .inl (w2 ▸ w1)
        · rw [← w1]; exact w2

/-- Every fair schedule without users leads to rest, for good. -/
theorem Linked.rest (hL : L.Lawful) (hO : ServerOptions.Built L os) (hmax : 0 < os.maxCommandSize)
    (h : Linked L gc oc gs os gr n T) {σ : Nat → NetOp} (hσ : FairSchedule σ) :
    ∃ k, ∀ j n' U, k ≤ j → n.run L (firstSteps σ j) = .ok (n', U) → n'.Stuck L := by
  have shift : ∀ {n n1 n2 : Net} {U1 U2 : List NItem} {σ : Nat → NetOp} {k j}, n.run L (firstSteps σ k) = .ok (n1, U1) →
      n.run L (firstSteps σ (k + j)) = .ok (n2, U2) → ∃ V, n1.run L (firstSteps (fun i => σ (k + i)) j) = .ok (n2, V) := by
    intro n n1 n2 U1 U2 σ k j h1 h2
    rw [firstSteps_add, run_append, h1] at h2
    simp only at h2
    cases h3 : n1.run L (firstSteps (fun i => σ (k + i)) j) with
    | error p => rw [h3] at h2; cases h2
    | ok x =>
      obtain ⟨n3, V⟩ := x
      rw [h3] at h2
      cases h2
      exact ⟨V, rfl⟩
  generalize hw : n.weight L = w
  induction w using lighter_wf.induction generalizing n T σ with
  | _ w ih =>
    by_cases hc : ∃ k n' U, n.run L (firstSteps σ k) = .ok (n', U) ∧ Lighter (n'.weight L) (n.weight L)
    · obtain ⟨k, n1, U1, h1, hl⟩ := hc
      rw [hw] at hl
      obtain ⟨i, hi⟩ := ih _ hl (h.run h1) (hσ.shift k) rfl
      refine ⟨k + i, fun j n2 U2 hj h2 => ?_⟩
      obtain ⟨i', rfl⟩ : ∃ i', j = k + i' := ⟨j - k, by omega⟩
      obtain ⟨V, hV⟩ := shift h1 h2
      exact hi i' n2 V (by omega) hV
    · refine ⟨0, fun j n1 U1 _ h1 => ?_⟩
      have hint : ∀ op ∈ firstSteps σ j, op.Internal := by
        intro op ho
        obtain ⟨i, -, rfl⟩ := List.mem_map.mp ho
        exact hσ.internal i
      have heq := (h.run_weight hL hmax hint h1).resolve_left fun hl => hc ⟨j, n1, U1, h1, hl⟩
      refine (h.run h1).stuck_of_const hL hO hmax (hσ.shift j) fun i n2 U2 h2 hl => ?_
      rw [heq] at hl
      refine hc ⟨j + i, n2, U1 ++ U2, ?_, hl⟩
      rw [firstSteps_add, run_append, h1]
      simp [h2, Except.map]

end Net

end ImapFlow

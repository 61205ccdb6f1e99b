import Verif.Spec.Sockets
import Verif.Spec.RelayRestSamples

/-!
# Concrete systems whose sockets hold a few bytes
-/

namespace ImapFlow.SocketSample

open ClientSample (str g)
open NetSample (cmdC)

/-! ## Two streams -/

/-- Three bytes to the server and two bytes to the client. -/
def few : Capacities := { toServer := 3, toClient := 2 }

/-- The next step of a system whose users only call `next`. -/
def pick (n : StreamNet Nat) : Option StreamNetAct :=
  if n.client.ctl = .at .idle then some (.client .callNext)
  else if n.server.ctl = .at .idle then some (.server .callNext)
  else if n.toClient ≠ [] then some (.client (.read 5))
  else if n.toServer ≠ [] then some (.server (.read 2))
  else if n.client.writeBuffer ≠ [] then some (.client (.write (min 3 n.client.writeBuffer.length)))
  else if n.server.writeBuffer ≠ [] then some (.server (.write (min 2 n.server.writeBuffer.length)))
  else none

/-- Up to `k` such steps, within the capacities. -/
def settle : Nat → StreamNet Nat → List StreamNetItem → StreamNet Nat × List StreamNetItem
  | 0, n, G => (n, G)
  | k + 1, n, G =>
    match pick n with
    | none => (n, G)
    | some a =>
      if a.Internal n ∧ a.Fits few n then
        match n.step Toy.lib a with
        | none => (n, G)
        | some (n, G') => settle k n (G ++ G')
      else (n, G)

theorem unattended_of_settle {n n1 : StreamNet Nat} {G : List StreamNetItem} (hu : n.UnattendedWithin Toy.lib few n1 G)
    (k : Nat) : n.UnattendedWithin Toy.lib few (settle k n1 G).1 (settle k n1 G).2 := by
  induction k generalizing n1 G with
  | zero => exact hu
  | succ k ih =>
    unfold settle
    split
    · exact hu
    · split
      · rename_i a _ hf
        split
        · exact hu
        · rename_i n2 G2 hs
          exact ih (hu.snoc ⟨a, hf.1, hf.2, hs⟩)
      · exact hu

open StreamDialogueSample (askedState) in
/-- The commands and the data of `StreamDialogueSample.asked` are transported in small portions. -/
theorem few_run : ¬ askedState.1.Waiting ∧ (settle 2000 askedState.1 []).1.Waiting ∧
    (.client .refused ∉ (settle 2000 askedState.1 []).2 ∧ .server .refused ∉ (settle 2000 askedState.1 []).2) := by
  decide +kernel

open StreamDialogueSample (asked Suitable called) in
theorem few_rest : ∃ n G n' G', StreamNetSample.start.run Toy.lib asked = some (n, G) ∧ Suitable G (called G) ∧
    (atClient G).filterMap StreamItem.enqueued? = [NetSample.cmdA, cmdC] ∧
    ¬ (n.client.ctl = .at .flushing ∧ n.server.ctl = .at .flushing) ∧ ¬ n.Waiting ∧
    n.UnattendedWithin Toy.lib few n' G' ∧ n'.Waiting ∧ (.client .refused ∉ G' ∧ .server .refused ∉ G') := by
  obtain ⟨h1, h2, -, h4⟩ := StreamDialogueSample.asked_run
  obtain ⟨h5, h6, h7⟩ := few_run
  exact ⟨_, _, _, _, h1, h2, h4, by decide +kernel, h5, unattended_of_settle .nil 2000, h6, h7⟩

/-! ### Both users in `flush` -/

/-- One byte in each direction. -/
def one : Capacities := { toServer := 1, toClient := 1 }

/-- The greeting is transported byte by byte. -/
def greet : List StreamNetAct :=
  .client .callNext :: .server .callNext :: (List.replicate 5 [.server (.write 1), .client (.read 1)]).flatten

/-- The command `C` with that many bytes and one more. -/
def long (n : Nat) : Command := ⟨str "C", .other (List.replicate (n + 1) 122)⟩

/-- Then the client has a command and the server has data to send, both longer than the capacities.  Both users drop their
calls of `next` and call `flush`, and the sockets accept as much as they can hold. -/
def bothFlush (k : Capacities) : List StreamNetAct := greet ++
  ([.client (.user (.enqueueCommand (long k.toServer))), .client .callNext, .client .drop, .client .callFlush,
    .client (.write k.toServer)] ++
   [.server (.user (.enqueueData (.other (List.replicate (k.toClient + 1) 122)))), .server .callNext, .server .drop,
    .server .callFlush, .server (.write k.toClient)])

/-- The greeting was transported and nobody has anything to send. -/
def Greeted (n : StreamNet Nat) : Prop :=
  (n.client.tls = none ∧ n.client.readBuffer = [] ∧ n.client.writeBuffer = [] ∧ n.client.ctl = .at .idle ∧
    n.client.state.sendState = .new ∧ ∃ r, n.client.state.receiveState = .response r) ∧
  (n.server.tls = none ∧ n.server.readBuffer = [] ∧ n.server.writeBuffer = [] ∧ n.server.ctl = .at .idle ∧
    n.server.state.sendState = .new) ∧ n.toServer = [] ∧ n.toClient = []

/-- The same, as a check. -/
def greeted (n : StreamNet Nat) : Bool :=
  n.client.tls.isNone && n.client.readBuffer.isEmpty && n.client.writeBuffer.isEmpty && n.client.ctl == .at .idle &&
    n.client.state.sendState == .new && (match n.client.state.receiveState with | .response _ => true | _ => false) &&
    n.server.tls.isNone && n.server.readBuffer.isEmpty && n.server.writeBuffer.isEmpty && n.server.ctl == .at .idle &&
    n.server.state.sendState == .new && n.toServer.isEmpty && n.toClient.isEmpty

theorem of_greeted {n : StreamNet Nat} (h : greeted n = true) : Greeted n := by
  simp only [greeted, Bool.and_eq_true, beq_iff_eq, List.isEmpty_iff, Option.isNone_iff_eq_none] at h
  obtain ⟨⟨⟨⟨⟨⟨⟨⟨⟨⟨⟨⟨h1, h2⟩, h3⟩, h4⟩, h5⟩, h6⟩, h7⟩, h8⟩, h9⟩, h10⟩, h11⟩, h12⟩, h13⟩ := h
  refine ⟨⟨h1, h2, h3, h4, h5, ?_⟩, ⟨h7, h8, h9, h10, h11⟩, h12, h13⟩
  split at h6
  · exact ⟨_, by assumption⟩
  · cases h6

theorem greet_run : ∃ n G, StreamNetSample.plainStart.runWithin Toy.lib one greet = some (n, G) ∧
    (.client .refused ∉ G ∧ .server .refused ∉ G) ∧ Greeted n := by
  obtain ⟨n, G, h1, h2, h3⟩ := StreamNetSample.of_facts
    (x := StreamNetSample.plainStart.runWithin Toy.lib one greet)
    (P := fun r => (.client .refused ∉ r.2 ∧ .server .refused ∉ r.2) ∧ greeted r.1 = true) (by decide +kernel)
  exact ⟨n, G, h1, h2, of_greeted h3⟩

/-! ## With the proxy between them -/

/-- A few bytes in each direction. -/
def fewer : RelayCapacities := { clientToProxy := 2, proxyToClient := 1, proxyToServer := 4, serverToProxy := 3 }

/-- The next step of a system whose users only call `next`. -/
def choose (r : Relay Nat) : Option RelayAct :=
  if r.client.ctl = .at .idle then some (.client .callNext)
  else if r.server.ctl = .at .idle then some (.server .callNext)
  else if r.proxyToClient ≠ [] then some (.client (.read 10))
  else if r.proxyToServer ≠ [] then some (.server (.read 7))
  else match r.proxy with
    | .greeting _ u =>
      if u.ctl = .at .idle then some (.proxyServer .poll)
      else if r.serverToProxy ≠ [] then some (.proxyServer (.read 5))
      else if r.server.writeBuffer ≠ [] then some (.server (.write (min 3 r.server.writeBuffer.length)))
      else none
    | .conversation d u =>
      if d.ctl = .at .idle then some (.proxyClient .poll)
      else if u.ctl = .at .idle then some (.proxyServer .poll)
      else if r.clientToProxy ≠ [] then some (.proxyClient (.read 8))
      else if r.serverToProxy ≠ [] then some (.proxyServer (.read 6))
      else if r.client.writeBuffer ≠ [] then some (.client (.write (min 2 r.client.writeBuffer.length)))
      else if r.server.writeBuffer ≠ [] then some (.server (.write (min 3 r.server.writeBuffer.length)))
      else if d.writeBuffer ≠ [] then some (.proxyClient (.write (min 1 d.writeBuffer.length)))
      else if u.writeBuffer ≠ [] then some (.proxyServer (.write (min 4 u.writeBuffer.length)))
      else none
    | _ => none

/-- Up to `k` such steps, within the capacities. -/
def calm : Nat → Relay Nat → List RelayItem → Relay Nat × List RelayItem
  | 0, r, I => (r, I)
  | k + 1, r, I =>
    match choose r with
    | none => (r, I)
    | some a =>
      if a.Internal r ∧ a.Fits fewer r then
        match r.step Toy.lib g a with
        | none => (r, I)
        | some (r, I') => calm k r (I ++ I')
      else (r, I)

theorem unattended_of_calm {r r1 : Relay Nat} {I : List RelayItem} (hu : r.UnattendedWithin Toy.lib g fewer r1 I)
    (k : Nat) : r.UnattendedWithin Toy.lib g fewer (calm k r1 I).1 (calm k r1 I).2 := by
  induction k generalizing r1 I with
  | zero => exact hu
  | succ k ih =>
    unfold calm
    split
    · exact hu
    · split
      · rename_i a _ hf
        split
        · exact hu
        · rename_i r2 I2 hs
          exact ih (hu.snoc ⟨a, hf.1, hf.2, hs⟩)
      · exact hu

open RelayDialogueSample in
theorem fewer_run : Still (calm 5000 askedState.1 []).1 ∧
    (.client .refused ∉ (calm 5000 askedState.1 []).2 ∧ .server .refused ∉ (calm 5000 askedState.1 []).2 ∧
      .proxy (.clientTls .refused) ∉ (calm 5000 askedState.1 []).2 ∧
      .proxy (.serverTls .refused) ∉ (calm 5000 askedState.1 []).2) := by
  decide +kernel

open RelayDialogueSample in
theorem fewer_rest : ∃ r R r' I, RelaySample.start.run Toy.lib g asked = some (r, R) ∧
    Suitable R (clientTrace R) (serverTrace R) ∧ RelayOpen R ∧ ¬ r.Waiting ∧ relayedCommands R = [NetSample.cmdA, cmdC] ∧
    r.UnattendedWithin Toy.lib g fewer r' I ∧ RelayAccepted I ∧ r'.Waiting := by
  obtain ⟨h1, ⟨h2, h3⟩, h4, h5⟩ := RelayDialogueSample.asked_run
  obtain ⟨h7, h8⟩ := fewer_run
  exact ⟨_, _, _, _, h1, h2, h3, fun h => h4 h.2.1, h5, unattended_of_calm .nil 5000, h8, h7.waiting⟩

end ImapFlow.SocketSample

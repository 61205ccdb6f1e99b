import Verif.Spec.StreamDialogue
import Verif.Spec.DialogueSamples
import Verif.Spec.RestSamples

/-!
# Concrete dialogues on streams

The dialogue of `Spec/DialogueSamples.lean` on streams with and without TLS: the users act, then call `next` until both
wait, then drop the pending futures to act again.
-/

namespace ImapFlow.StreamDialogueSample

open ClientSample (str g)
open ServerSample (options greeting)
open NetSample (cmdA cmdC of_check)
open DialogueSample (authB idleI idleJ Fair orderly)
open StreamNetSample (start plainStart of_facts)

/-- The next step of a system whose users only call `next`. -/
def pick (n : StreamNet Nat) : Option StreamNetAct :=
  if n.client.ctl = .at .idle then some (.client .callNext)
  else if n.server.ctl = .at .idle then some (.server .callNext)
  else if n.client.writeBuffer ≠ [] then some (.client (.write (min 7 n.client.writeBuffer.length)))
  else if n.server.writeBuffer ≠ [] then some (.server (.write (min 4 n.server.writeBuffer.length)))
  else if n.toClient ≠ [] then some (.client (.read 5))
  else if n.toServer ≠ [] then some (.server (.read 6))
  else none

/-- Up to `k` such steps. -/
def settle : Nat → StreamNet Nat → List StreamNetAct
  | 0, _ => []
  | k + 1, n =>
    match pick n with
    | none => []
    | some a =>
      match n.step Toy.lib a with
      | none => []
      | some (n, _) => a :: settle k n

/-- The users act, then they wait; and so on. -/
def play : StreamNet Nat → List (List StreamNetAct) → List StreamNetAct
  | _, [] => []
  | n, x :: xs =>
    match n.run Toy.lib x with
    | none => []
    | some (n, _) =>
      let y := settle 200 n
      match n.run Toy.lib y with
      | none => []
      | some (n, _) => x ++ y ++ play n xs

/-- What the users do. -/
def script : List (List StreamNetAct) :=
  [[.client (.user (.enqueueCommand cmdA)), .client (.user (.enqueueCommand authB)),
    .server (.user (.enqueueData (.other (str "d"))))],
   [.server .drop, .server (.user (.authenticateContinue (.basic none (str "go")))),
    .server (.user (.enqueueStatus (.tagged (str "A") ⟨.bad, none, str "late"⟩)))],
   [.client .drop, .client (.user (.setAuthenticateData (.continue (str "pw")))), .client (.user (.enqueueCommand idleI)),
    .client (.user (.enqueueCommand idleJ)), .client (.user (.enqueueCommand cmdC))],
   [.server .drop, .server (.user (.authenticateFinish (.tagged (str "B") ⟨.ok, none, str "done"⟩)))],
   [.server .drop, .server (.user (.idleAccept (.basic none (str "idling")))),
    .server (.user (.enqueueData (.other (str "d"))))],
   [.client .drop, .client (.user .setIdleDone)],
   [.server .drop, .server (.user (.idleReject (.tagged (str "J") ⟨.no, none, str "busy"⟩)))]]

/-- What the theorems about dialogues ask for. -/
def Suitable (G : List StreamNetItem) (x : Except Panic (Net × List NItem)) : Prop :=
  (.client .refused ∉ G ∧ .server .refused ∉ G) ∧
  (x.map fun r => decide (Fair r.2 ∧ orderly { running := none, asked := 0, completed := [] } (serverItems r.2) = true)) =
    .ok true

instance (G : List StreamNetItem) (x : Except Panic (Net × List NItem)) : Decidable (Suitable G x) := by
  unfold Suitable; infer_instance

/-- What the users got in the end. -/
def Played (G : List StreamNetItem) : Prop :=
  (events (atServer G)).filterMap ServerEvent.heard? =
    [.commandReceived cmdA, .commandAuthenticateReceived ⟨str "B", .plain, none⟩,
     .authenticateDataReceived (.continue (str "pw")), .idleCommandReceived (str "I"), .idleDoneReceived,
     .idleCommandReceived (str "J"), .commandReceived cmdC] ∧
  (events (atClient G)).filterMap ClientEvent.answer? = [.authenticateContinue (.basic none (str "go")),
    .authenticateFinish (.tagged (str "B") ⟨.ok, none, str "done"⟩), .idleAccept (.basic none (str "idling")),
    .idleReject (.tagged (str "J") ⟨.no, none, str "busy"⟩)]

instance : DecidablePred Played := fun _ => by unfold Played; infer_instance

/-- The plain system makes the same calls. -/
def called (G : List StreamNetItem) : Except Panic (Net × List NItem) :=
  NetSample.start.run Toy.lib (G.flatMap StreamNetItem.calls)

theorem Suitable.hypotheses {G : List StreamNetItem} (h : Suitable G (called G)) :
    (.client .refused ∉ G ∧ .server .refused ∉ G) ∧ ∃ n T, called G = .ok (n, T) ∧
      (∀ m ∈ serverMessages greeting (serverItems T), m.RoundTrip Toy.lib .default) ∧
      ClearServer Toy.lib .default options greeting (serverItems T) ∧
      FairClient Toy.lib options (clientItems T) ∧ OrderlyServer (serverItems T) := by
  obtain ⟨⟨n, T⟩, h1, h2⟩ := of_check
    (P := fun r : Net × List NItem => Fair r.2 ∧ orderly { running := none, asked := 0, completed := [] } (serverItems r.2) = true) h.2
  exact ⟨h.1, n, T, h1, DialogueSample.messages_fair h2.1, RestSample.clear h2.1, DialogueSample.client_fair h2.1,
    DialogueSample.of_orderly h2.2⟩

/-- The whole dialogue, with TLS. -/
theorem tls_run : ∃ n G, start.run Toy.lib (play start script) = some (n, G) ∧
    n.Waiting ∧ Suitable G (called G) ∧ Played G :=
  of_facts (P := fun r => r.1.Waiting ∧ Suitable r.2 (called r.2) ∧ Played r.2) (by decide +kernel)

/-- The whole dialogue, without TLS. -/
theorem plain_run : ∃ n G, plainStart.run Toy.lib (play plainStart script) = some (n, G) ∧
    n.Waiting ∧ Suitable G (called G) ∧ Played G :=
  of_facts (P := fun r => r.1.Waiting ∧ Suitable r.2 (called r.2) ∧ Played r.2) (by decide +kernel)

/-- What the user of the server says between the answers. -/
def Remarks (G : List StreamNetItem) : Prop :=
  (atServer G).filterMap StreamItem.told? =
    [.data (.other (str "d")), .status (.tagged (str "A") ⟨.bad, none, str "late"⟩), .data (.other (str "d"))]

instance : DecidablePred Remarks := fun _ => by unfold Remarks; infer_instance

theorem tls_remarks : ∃ n G, start.run Toy.lib (play start script) = some (n, G) ∧
    n.Waiting ∧ Suitable G (called G) ∧ Remarks G :=
  of_facts (P := fun r => r.1.Waiting ∧ Suitable r.2 (called r.2) ∧ Remarks r.2) (by decide +kernel)

/-! ## Without the users -/

instance {ι : Type} (wire : Bytes) (act : SideAct ι) : Decidable (act.Internal wire) := by
  cases act <;> (unfold SideAct.Internal; infer_instance)

instance (n : StreamNet Nat) (a : StreamNetAct) : Decidable (a.Internal n) := by
  cases a <;> (unfold StreamNetAct.Internal; infer_instance)

/-- Runs the system without its users. -/
def alone (n : StreamNet Nat) : List StreamNetAct → Option (StreamNet Nat × List StreamNetItem)
  | [] => some (n, [])
  | a :: as =>
    if a.Internal n then
      match n.step Toy.lib a with
      | none => none
      | some (n, G) => (alone n as).map fun r => (r.1, G ++ r.2)
    else none

theorem unattended_of_alone {n1 n2 : StreamNet Nat} {as : List StreamNetAct} {G1 G2 : List StreamNetItem} {n : StreamNet Nat}
    (hu : n.Unattended Toy.lib n1 G1) (h : alone n1 as = some (n2, G2)) : n.Unattended Toy.lib n2 (G1 ++ G2) := by
  induction as generalizing n1 G1 G2 with
  | nil => cases h; simpa using hu
  | cons a as ih =>
    simp only [alone] at h
    split at h
    · rename_i hi
      split at h
      · cases h
      · rename_i n3 G3 hs
        obtain ⟨⟨n4, G4⟩, h4, h5⟩ := Option.map_eq_some_iff.1 h
        cases h5
        have := ih (hu.snoc ⟨a, hi, hs⟩) h4
        rwa [List.append_assoc] at this
    · cases h

/-- Two commands were enqueued, one with a literal, and the server has something to say; nothing was sent yet. -/
def asked : List StreamNetAct :=
  [.client (.user (.enqueueCommand cmdA)), .client (.user (.enqueueCommand cmdC)), .server (.user (.enqueueData (.other (str "d"))))]

def askedState : StreamNet Nat × List StreamNetItem := ((start.run Toy.lib asked).getD (start, []))

def restState : StreamNet Nat × List StreamNetItem :=
  ((alone askedState.1 (settle 200 askedState.1)).getD (start, []))

theorem some_getD {α : Type} {x : Option α} (h : x.isSome = true) (d : α) : x = some (x.getD d) := by
  cases x with
  | none => cases h
  | some a => rfl

theorem asked_run : start.run Toy.lib asked = some askedState ∧ Suitable askedState.2 (called askedState.2) ∧
    ¬ askedState.1.Waiting ∧ (atClient askedState.2).filterMap StreamItem.enqueued? = [cmdA, cmdC] :=
  ⟨some_getD (by decide +kernel) _, by decide +kernel⟩

theorem rest_run : alone askedState.1 (settle 200 askedState.1) = some restState ∧ restState.1.Waiting ∧
    (.client .refused ∉ restState.2 ∧ .server .refused ∉ restState.2) :=
  ⟨some_getD (by decide +kernel) _, by decide +kernel⟩

theorem comes_to_rest : ∃ n G n' G', start.run Toy.lib asked = some (n, G) ∧ Suitable G (called G) ∧ ¬ n.Waiting ∧
    (atClient G).filterMap StreamItem.enqueued? = [cmdA, cmdC] ∧ n.Unattended Toy.lib n' G' ∧ n'.Waiting ∧
    (.client .refused ∉ G' ∧ .server .refused ∉ G') := by
  obtain ⟨h1, h2, h3, h4⟩ := asked_run
  obtain ⟨h5, h6, h7⟩ := rest_run
  revert h1 h2 h3 h4 h5 h6 h7
  generalize askedState = s
  generalize restState = r
  obtain ⟨n, G⟩ := s
  obtain ⟨n', G'⟩ := r
  intro h1 h2 h3 h4 h5 h6 h7
  exact ⟨n, G, n', G', h1, h2, h3, h4, by simpa using unattended_of_alone .nil h5, h6, h7⟩

end ImapFlow.StreamDialogueSample

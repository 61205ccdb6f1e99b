import Verif.Proofs.NetReads
import Verif.Props.C12
import Verif.Props.C19

/-!
# Messages on a connection
-/

namespace ImapFlow

variable {L : Lib} {gc gs : HandleGenerator} {oc : ClientOptions} {os : ServerOptions} {gr : Greeting}
  {n : Net} {T : List NItem}

theorem Server.greetingFirst {g : HandleGenerator} {o : ServerOptions} {ops : List ServerOp} {s : Server}
    {T : List SItem} (h : (Server.new g o gr).trace L ops = .ok (s, T)) : GreetingFirst (serverMessages gr T) := by
  intro n m hm
  cases n with
  | zero =>
    unfold serverMessages at hm
    cases hm
    simp
  | succ n =>
    constructor
    · rintro ⟨g', rfl⟩
      unfold serverMessages at hm
      rw [List.getElem?_cons_succ] at hm
      obtain ⟨i, hi, hmi⟩ := List.mem_flatMap.mp (List.mem_of_getElem? hm)
      obtain ⟨A, B, rfl⟩ := List.append_of_mem hi
      exact (Server.enqueues_not_greeting (Server.trace_guard h) hmi).elim
    · intro h; cases h

theorem GreetingFirst.take {ms : List ServerMessage} (h : GreetingFirst ms) (k : Nat) : GreetingFirst (ms.take k) := by
  intro n m hm
  refine h n m ?_
  rw [List.getElem?_take] at hm
  split at hm
  · exact hm
  · cases hm

/-- The messages handed out by the server. -/
theorem Net.Linked.output (h : Net.Linked L gc oc gs os gr n T) :
    (serverOutputs (serverItems T)).length ≤ (serverMessages gr (serverItems T)).length ∧
    serverOutput (serverItems T) =
    ((serverMessages gr (serverItems T)).take (serverOutputs (serverItems T)).length).flatMap (ServerMessage.bytes L) := by
  obtain ⟨ops, hs⟩ := h.server
  obtain ⟨k, h1, h2⟩ := C19_server_output hs
  have hk : (serverOutputs (serverItems T)).length = k := by
    rw [h2, List.length_map, List.length_take]; omega
  rw [hk]
  refine ⟨h1, ?_⟩
  rw [← ((ServerView.of_fields gr (serverItems T)).2.2.2.1), ServerView.of_outputs, h2, List.flatMap_def]

/-- What the client has read at any moment of its trace. -/
theorem Net.Linked.reads (hL : L.Lawful) (h : Net.Linked L gc oc gs os gr n T)
    (hrt : ∀ m ∈ serverMessages gr (serverItems T), m.RoundTrip L oc) {T1 T2 : List CItem}
    (hT : clientItems T = T1 ++ T2) :
    ∃ k, k ≤ (serverOutputs (serverItems T)).length ∧
      clientTaken T1 = ((serverMessages gr (serverItems T)).take k).flatMap (ServerMessage.bytes L) ∧
      clientDecoded L T1 = ((serverMessages gr (serverItems T)).take k).map ServerMessage.content ∧
      (∀ e, .failed e ∉ T1) ∧ (clientGreeted T1 ↔ 0 < k) := by
  obtain ⟨ops, hc⟩ := h.client
  obtain ⟨ops', hs⟩ := h.server
  obtain ⟨hle, hout⟩ := h.output
  rw [hT] at hc
  obtain ⟨k, h1, h2, h3, h4, h5⟩ := Client.reads hL hc ((Server.greetingFirst hs).take _)
    (fun m hm => hrt m (List.mem_of_mem_take hm)) (by
      rw [← hout, ← h.toClient, hT]
      exact List.prefix_append ..)
  rw [List.length_take] at h1
  rw [List.take_take, Nat.min_eq_left (by omega)] at h2 h3
  exact ⟨k, by omega, h2, h3, h4, h5⟩

/-! ## Commands -/

theorem CommandEncodes.message {c : Command} {p : Bytes} {fs : List Fragment}
    (h : CommandEncodes L os.crlfRelaxed c p fs) (hp : Announced (commandFraming L os) p)
    (hl : ∀ d mode, .literal d mode ∈ fs → d.length ≤ os.maxLiteralSize) :
    IsMessage (commandFraming L os) (p ++ wire fs) c := by
  induction h with
  | @last p l h1 h2 h3 =>
    have hw : wire [.line l] = l := by simp [wire, Fragment.data]
    rw [hw]
    exact ⟨p, l, rfl, hp, h1, h2, h3⟩
  | @literal p l d mode fs h1 h2 h3 h4 ih =>
    have := ih (.literal hp h1 h2 h3 (by
      show CommandDecodeError.acceptable os.maxLiteralSize (.literalFound c.tag d.length mode) = some d.length
      rw [CommandDecodeError.acceptable, if_pos (hl d mode (by simp))]))
      (fun d mode hm => hl d mode (by simp [hm]))
    have he : p ++ wire (.line l :: .literal d mode :: fs) = p ++ l ++ d ++ wire fs := by
      simp [wire, Fragment.data]
    rw [he]
    exact this

theorem Command.message {c : Command} (h : c.RoundTrip L os) (hf : c.Fits L os) :
    IsMessage (commandFraming L os) (wire (L.encodeCommand c)) c :=
  CommandEncodes.message h .nil hf.2

/-- How a server reads a command. -/
def Command.read (L : Lib) (c : Command) : SItem := .received (wire (L.encodeCommand c)) (.commandReceived c)

theorem Command.plainRead {c : Command} (hr : c.isRegular = true) (h : c.RoundTrip L os) (hf : c.Fits L os) :
    PlainRead L os (c.read L) :=
  .inl ⟨_, _, rfl, hr, Command.message h hf, hf.1⟩

/-- What the server has read at any moment of its trace. -/
theorem Net.Linked.commands (hL : L.Lawful) (h : Net.Linked L gc oc gs os gr n T) (hmax : 0 < os.maxCommandSize)
    (hc : GoodCommands L os (clientItems T)) {T1 T2 : List SItem} (hT : serverItems T = T1 ++ T2) :
    ∃ k, k ≤ (clientEnqueued (clientItems T)).length ∧
      T1.filter SItem.reads = ((clientEnqueued (clientItems T)).take k).map (fun x => x.2.read L) ∧
      serverPhase T1 = .command := by
  obtain ⟨ops, hcl⟩ := h.client
  obtain ⟨ops', hs⟩ := h.server
  rw [hT] at hs
  have hout := C12_output_prefix hL hcl hc.regular hc.accepted
  obtain ⟨k, h1, h2, h3⟩ := Server.reads (us := (clientEnqueued (clientItems T)).map fun x => x.2.read L) hs hmax
    (by
      intro u hu
      obtain ⟨x, hx, rfl⟩ := List.mem_map.mp hu
      exact Command.plainRead (hc.regular x hx) (hc.roundTrip x hx) (hc.fits x hx))
    (by
      rw [List.flatMap_map]
      refine List.IsPrefix.trans ?_ hout
      rw [← h.toServer, hT, serverGiven_append, List.append_assoc]
      exact List.prefix_append ..)
  refine ⟨k, by simpa using h1, ?_, h3⟩
  rw [h2, List.map_take]

theorem serverCommands_filter (T : List SItem) : serverCommands T = serverCommands (T.filter SItem.reads) := by
  induction T with
  | nil => rfl
  | cons i T ih =>
    rw [List.filter_cons]
    cases hr : i.reads with
    | true =>
      simp only [if_true]
      unfold serverCommands at ih ⊢
      rw [List.filterMap_cons, List.filterMap_cons, ih]
    | false =>
      have : i.command? = none := by cases i <;> first | rfl | cases hr
      rw [if_neg (by simp), ← ih]
      unfold serverCommands
      rw [List.filterMap_cons, this]

theorem serverCommands_reads (xs : List (RawHandle × Command)) :
    serverCommands (xs.map fun x => x.2.read L) = xs.map (·.2) := by
  induction xs with
  | nil => rfl
  | cons x xs ih =>
    unfold serverCommands at ih ⊢
    rw [List.map_cons, List.filterMap_cons, ih]
    rfl

end ImapFlow

import Verif.Proofs.Sockets
import Verif.Proofs.ClientChunk
import Verif.Proofs.ServerChunk
import Verif.Spec.SocketSamples

/-!
# Lemmas on sockets that are full
-/

namespace ImapFlow

variable {K : Type}

namespace StreamNet

variable {L : Lib} {k k' : Capacities} {n n1 n2 : StreamNet K} {G1 G2 : List StreamNetItem}

theorem runWithin_cons {a : StreamNetAct} {as : List StreamNetAct} (hf : a.Fits k n) (h1 : n.step L a = some (n1, G1))
    (h2 : n1.runWithin L k as = some (n2, G2)) : n.runWithin L k (a :: as) = some (n2, G1 ++ G2) := by
  simp only [runWithin, if_pos hf, h1, h2]

theorem runWithin_append {as bs : List StreamNetAct} (h1 : n.runWithin L k as = some (n1, G1))
    (h2 : n1.runWithin L k bs = some (n2, G2)) : n.runWithin L k (as ++ bs) = some (n2, G1 ++ G2) := by
  induction as generalizing n G1 with
  | nil =>
    simp only [runWithin, Option.some.injEq, Prod.mk.injEq] at h1
    obtain ⟨rfl, rfl⟩ := h1
    simpa using h2
  | cons a as ih =>
    simp only [runWithin] at h1
    split at h1
    · rename_i hf
      split at h1
      · cases h1
      · rename_i m G hs
        split at h1
        · cases h1
        · rename_i m' G' hr
          simp only [Option.some.injEq, Prod.mk.injEq] at h1
          obtain ⟨rfl, rfl⟩ := h1
          rw [List.cons_append, List.append_assoc]
          exact runWithin_cons hf hs (ih hr)
    · cases h1

/-- What is possible with smaller sockets is possible with larger ones. -/
theorem runWithin_mono (hk : k.toServer ≤ k'.toServer ∧ k.toClient ≤ k'.toClient) {as : List StreamNetAct}
    (h : n.runWithin L k as = some (n1, G1)) : n.runWithin L k' as = some (n1, G1) := by
  induction as generalizing n G1 with
  | nil => exact h
  | cons a as ih =>
    simp only [runWithin] at h
    split at h
    · rename_i hf
      have hf' : a.Fits k' n := by
        rcases a with a | a <;> cases a <;> simp only [StreamNetAct.Fits, SideAct.Fits] at hf ⊢ <;> omega
      split at h
      · cases h
      · rename_i m G hs
        split at h
        · cases h
        · rename_i m' G' hr
          simp only [Option.some.injEq, Prod.mk.injEq] at h
          obtain ⟨rfl, rfl⟩ := h
          exact runWithin_cons hf' hs (ih hr)
    · cases h

theorem of_client {c : FullStream K Client} {items : List (FullItem ClientError ClientEvent ClientOp)} {act : SideAct ClientOp}
    (ha : ∀ op, act ≠ .user op) (h : n.client.step (clientMachine L) (act.toStream n.toClient) = some (c, items)) :
    n.step L (.client act) = some ({ n with client := c, toClient := act.rest n.toClient, toServer := n.toServer ++ streamWrote (streamPart items) },
      items.map .client) := by
  cases act with
  | user op => exact absurd rfl (ha op)
  | _ => simp only [step, clientStep, h]

theorem of_server {c : FullStream K Server} {items : List (FullItem ServerError ServerEvent ServerOp)} {act : SideAct ServerOp}
    (ha : ∀ op, act ≠ .user op) (h : n.server.step (serverMachine L) (act.toStream n.toServer) = some (c, items)) :
    n.step L (.server act) = some ({ n with server := c, toServer := act.rest n.toServer, toClient := n.toClient ++ streamWrote (streamPart items) },
      items.map .server) := by
  cases act with
  | user op => exact absurd rfl (ha op)
  | _ => simp only [step, serverStep, h]

end StreamNet

namespace SocketSample

open ClientSample (str)

theorem plain (n : Nat) : Toy.needsLiteral (List.replicate (n + 1) 122) = false := by
  simp [Toy.needsLiteral, List.mem_replicate, LF, CR]

/-- What the client sends. -/
def longLine (n : Nat) : Bytes := Toy.ln (str "C" ++ [32, 67] ++ List.replicate (n + 1) 122)

/-- What the server sends. -/
def dataLine (n : Nat) : Bytes := Toy.ln (42 :: List.replicate (n + 1) 122)

theorem long_encoded (n : Nat) : Toy.lib.encodeCommand (long n) = [.line (longLine n)] := by
  show (if Toy.needsLiteral (122 :: List.replicate n 122) = true then _ else _) = _
  have h := plain n
  rw [List.replicate_succ] at h
  rw [if_neg (by rw [h]; decide)]
  rfl

theorem data_encoded (n : Nat) : Toy.lib.encodeResponse (.data (.other (List.replicate (n + 1) 122))) = [.line (dataLine n)] := by
  show (if Toy.needsLiteral (List.replicate (n + 1) 122) = true then _ else _) = _
  rw [if_neg (by rw [plain n]; decide)]
  rfl

theorem long_next (hg : HandleGenerator) (h : RawHandle) (r : ReceiveState) (n : Nat) : ∃ c,
    Client.next Toy.lib ⟨hg, ⟨[⟨h, long n⟩], none⟩, .response r⟩ = .ok (c, .error (.io (.output (longLine n)))) := by
  have h1 : (⟨h, long n⟩ : ClientQueued).start Toy.lib =
      .ok (.command { handle := h, command := long n, fragments := [.line (longLine n)], activity := .pushingFragments none }) := by
    unfold ClientQueued.start
    rw [long_encoded]
    rfl
  have h2 : (longLine n ++ []).isEmpty = false := by rw [List.append_nil]; rfl
  rw [Client.next_eq]
  simp only [Client.progressSend, ClientSendState.next, h1, ClientSendState.progressCurrent, ClientCurrent.pushToBuffer,
    CommandState.pushToBuffer, pushFragments, Option.getD_none, List.nil_append, h2]
  simp only [List.append_nil]
  exact ⟨_, rfl⟩

theorem data_next (s : Server) (h : RawHandle) (n : Nat) : ∃ s',
    Server.next Toy.lib { s with sendState := ⟨[.response (some h) (.data (.other (List.replicate (n + 1) 122)))], none⟩ } =
      .ok (s', .error (.io (.output (dataLine n)))) := by
  rw [Server.next_eq]
  simp only [Server.progressSend, ServerSendState.next, ServerMessage.pushToBuffer, pushEncodedToBuffer, data_encoded,
    List.flatMap_cons, List.flatMap_nil, Fragment.data, List.append_nil]
  exact ⟨_, rfl⟩

theorem longLine_length (n : Nat) : (longLine n).length = n + 6 := by
  simp [longLine, Toy.ln, str, List.length_replicate]

theorem dataLine_length (n : Nat) : (dataLine n).length = n + 4 := by
  simp [dataLine, Toy.ln]

section

variable {σ ε ev ι : Type} {M : Machine σ ε ev ι} {st st' : σ} {bytes : Bytes} {rest : Bytes}

theorem next_races (h : M.next st = .ok (st', .error (.io (.output bytes)))) (hb : bytes ≠ []) :
    (⟨none, [], [], st, .at .idle⟩ : FullStream Nat σ).step M .callNext =
      some (⟨none, [], bytes, st', .at .racing⟩, [.stream .callNext, .stream (.poll (.error (.io (.output bytes))))]) := by
  have : bytes.isEmpty = false := by cases bytes with | nil => exact absurd rfl hb | cons => rfl
  simp [FullStream.step, FullStream.advance, FullStream.provideInput, FullStream.deliver, h, FullStream.handleOutput,
    FullStream.outputBytes, hb]

theorem flush_starts (hb : bytes ≠ []) : (⟨none, [], bytes, st, .at .idle⟩ : FullStream Nat σ).step M .callFlush =
      some (⟨none, [], bytes, st, .at .flushing⟩, [.stream .callFlush]) := by
  simp [FullStream.step, FullStream.startFlush, FullStream.handleOutput, hb]

theorem flush_writes {m : Nat} (h0 : 0 < m) (hm : m < bytes.length) :
    (⟨none, [], bytes, st, .at .flushing⟩ : FullStream Nat σ).step M (.write m) =
      some (⟨none, [], bytes.drop m, st, .at .flushing⟩, [.stream (.wrote (bytes.take m))]) := by
  have h1 : ¬ m = 0 := by omega
  have h2 : ¬ bytes.length ≤ m := by omega
  simp [FullStream.step, FullStream.completeFlush, h1, h2, Nat.le_of_lt hm]

end

/-- What the client does. -/
theorem client_flush {k : Capacities} {n : StreamNet Nat} (h : Greeted n) (hk : 0 < k.toServer) :
    ∃ c t G, n.runWithin Toy.lib k [.client (.user (.enqueueCommand (long k.toServer))), .client .callNext, .client .drop,
      .client .callFlush, .client (.write k.toServer)] = some ({ n with client := c, toServer := t }, G) ∧
      (.client .refused ∉ G ∧ .server .refused ∉ G) ∧ c.ctl = .at .flushing ∧ t.length = k.toServer := by
  obtain ⟨⟨tls, rb, wb, ⟨hg, ss, rs⟩, ctl⟩, s, ts, tc⟩ := n
  obtain ⟨⟨h1, h2, h3, h4, h5, r, h6⟩, -, h7, h8⟩ := h
  dsimp only at h1 h2 h3 h4 h5 h6 h7 h8
  subst h1 h2 h3 h4 h5 h6 h7 h8
  have hl := longLine_length k.toServer
  have hne : longLine k.toServer ≠ [] := by intro e; rw [e] at hl; simp at hl
  obtain ⟨c', hc⟩ := long_next hg.generate.1 hg.generate.2 r k.toServer
  have s1 : StreamNet.step Toy.lib (⟨⟨none, [], [], ⟨hg, .new, .response r⟩, .at .idle⟩, s, [], []⟩ : StreamNet Nat) (.client (.user (.enqueueCommand (long k.toServer)))) =
      some ((⟨⟨none, [], [], ⟨hg.generate.1, ⟨[⟨hg.generate.2, long k.toServer⟩], none⟩, .response r⟩, .at .idle⟩, s, [], []⟩ : StreamNet Nat), [.client (.stream (.user _))]) := rfl
  have s2 : StreamNet.step Toy.lib (⟨⟨none, [], [], ⟨hg.generate.1, ⟨[⟨hg.generate.2, long k.toServer⟩], none⟩, .response r⟩, .at .idle⟩, s, [], []⟩ : StreamNet Nat) (.client .callNext) =
      some ((⟨⟨none, [], longLine k.toServer, c', .at .racing⟩, s, [], []⟩ : StreamNet Nat), [.client (.stream .callNext), .client (.stream (.poll (.error (.io (.output (longLine k.toServer))))))]) :=
    StreamNet.of_client (n := (⟨⟨none, [], [], ⟨hg.generate.1, ⟨[⟨hg.generate.2, long k.toServer⟩], none⟩, .response r⟩, .at .idle⟩, s, [], []⟩ : StreamNet Nat))
      (act := .callNext) nofun (next_races (M := clientMachine Toy.lib) hc hne)
  have s3 : StreamNet.step Toy.lib (⟨⟨none, [], longLine k.toServer, c', .at .racing⟩, s, [], []⟩ : StreamNet Nat) (.client .drop) =
      some ((⟨⟨none, [], longLine k.toServer, c', .at .idle⟩, s, [], []⟩ : StreamNet Nat), [.client (.stream .dropped)]) := rfl
  have s4 : StreamNet.step Toy.lib (⟨⟨none, [], longLine k.toServer, c', .at .idle⟩, s, [], []⟩ : StreamNet Nat) (.client .callFlush) =
      some ((⟨⟨none, [], longLine k.toServer, c', .at .flushing⟩, s, [], []⟩ : StreamNet Nat), [.client (.stream .callFlush)]) :=
    StreamNet.of_client (n := (⟨⟨none, [], longLine k.toServer, c', .at .idle⟩, s, [], []⟩ : StreamNet Nat))
      (act := .callFlush) nofun (flush_starts (M := clientMachine Toy.lib) (st := c') hne)
  have s5 : StreamNet.step Toy.lib (⟨⟨none, [], longLine k.toServer, c', .at .flushing⟩, s, [], []⟩ : StreamNet Nat) (.client (.write k.toServer)) =
      some ((⟨⟨none, [], ((longLine k.toServer).drop k.toServer), c', .at .flushing⟩, s, ((longLine k.toServer).take k.toServer), []⟩ : StreamNet Nat), [.client (.stream (.wrote ((longLine k.toServer).take k.toServer)))]) := by
    have h := StreamNet.of_client (L := Toy.lib) (n := (⟨⟨none, [], longLine k.toServer, c', .at .flushing⟩, s, [], []⟩ : StreamNet Nat)) (act := .write k.toServer) nofun
      (flush_writes (M := clientMachine Toy.lib) (st := c') hk (by omega))
    rw [h]
    simp [streamWrote, streamPart, SideAct.rest, FullItem.stream?]
  refine ⟨_, _, _, StreamNet.runWithin_cons trivial s1 (StreamNet.runWithin_cons trivial s2 (StreamNet.runWithin_cons trivial s3
    (StreamNet.runWithin_cons trivial s4 (StreamNet.runWithin_cons (Nat.le_of_eq (Nat.zero_add _)) s5 rfl)))), ?_, rfl, ?_⟩
  · simp
  · rw [List.length_take]; omega

/-- What the server does. -/
theorem server_flush {k : Capacities} {c : FullStream Nat Client} {st : Server} {t : Bytes} (h : st.sendState = .new)
    (hk : 0 < k.toClient) : ∃ v w G,
    StreamNet.runWithin Toy.lib k ⟨c, ⟨none, [], [], st, .at .idle⟩, t, []⟩
      [.server (.user (.enqueueData (.other (List.replicate (k.toClient + 1) 122)))), .server .callNext, .server .drop, .server .callFlush, .server (.write k.toClient)] =
      some (⟨c, v, t, w⟩, G) ∧
      (.client .refused ∉ G ∧ .server .refused ∉ G) ∧ v.ctl = .at .flushing ∧ w.length = k.toClient := by
  obtain ⟨o, hg, ss, rs⟩ := st
  dsimp only at h
  subst h
  have hl := dataLine_length k.toClient
  have hne : dataLine k.toClient ≠ [] := by intro e; rw [e] at hl; simp at hl
  obtain ⟨s', hc⟩ := data_next ⟨o, hg.generate.1, .new, rs⟩ hg.generate.2 k.toClient
  have s1 : StreamNet.step Toy.lib (⟨c, ⟨none, [], [], ⟨o, hg, .new, rs⟩, .at .idle⟩, t, []⟩ : StreamNet Nat) (.server (.user (.enqueueData (.other (List.replicate (k.toClient + 1) 122))))) =
      some ((⟨c, ⟨none, [], [], ⟨o, hg.generate.1, ⟨[.response (some hg.generate.2) (.data (.other (List.replicate (k.toClient + 1) 122)))], none⟩, rs⟩, .at .idle⟩, t, []⟩ : StreamNet Nat), [.server (.stream (.user _))]) := rfl
  have s2 : StreamNet.step Toy.lib (⟨c, ⟨none, [], [], ⟨o, hg.generate.1, ⟨[.response (some hg.generate.2) (.data (.other (List.replicate (k.toClient + 1) 122)))], none⟩, rs⟩, .at .idle⟩, t, []⟩ : StreamNet Nat) (.server .callNext) =
      some ((⟨c, ⟨none, [], dataLine k.toClient, s', .at .racing⟩, t, []⟩ : StreamNet Nat), [.server (.stream .callNext), .server (.stream (.poll (.error (.io (.output (dataLine k.toClient))))))]) :=
    StreamNet.of_server (n := (⟨c, ⟨none, [], [], ⟨o, hg.generate.1, ⟨[.response (some hg.generate.2) (.data (.other (List.replicate (k.toClient + 1) 122)))], none⟩, rs⟩, .at .idle⟩, t, []⟩ : StreamNet Nat))
      (act := .callNext) nofun (next_races (M := serverMachine Toy.lib) hc hne)
  have s3 : StreamNet.step Toy.lib (⟨c, ⟨none, [], dataLine k.toClient, s', .at .racing⟩, t, []⟩ : StreamNet Nat) (.server .drop) =
      some ((⟨c, ⟨none, [], dataLine k.toClient, s', .at .idle⟩, t, []⟩ : StreamNet Nat), [.server (.stream .dropped)]) := rfl
  have s4 : StreamNet.step Toy.lib (⟨c, ⟨none, [], dataLine k.toClient, s', .at .idle⟩, t, []⟩ : StreamNet Nat) (.server .callFlush) =
      some ((⟨c, ⟨none, [], dataLine k.toClient, s', .at .flushing⟩, t, []⟩ : StreamNet Nat), [.server (.stream .callFlush)]) :=
    StreamNet.of_server (n := (⟨c, ⟨none, [], dataLine k.toClient, s', .at .idle⟩, t, []⟩ : StreamNet Nat))
      (act := .callFlush) nofun (flush_starts (M := serverMachine Toy.lib) (st := s') hne)
  have s5 : StreamNet.step Toy.lib (⟨c, ⟨none, [], dataLine k.toClient, s', .at .flushing⟩, t, []⟩ : StreamNet Nat) (.server (.write k.toClient)) =
      some ((⟨c, ⟨none, [], ((dataLine k.toClient).drop k.toClient), s', .at .flushing⟩, t, ((dataLine k.toClient).take k.toClient)⟩ : StreamNet Nat), [.server (.stream (.wrote ((dataLine k.toClient).take k.toClient)))]) := by
    have h := StreamNet.of_server (L := Toy.lib) (n := (⟨c, ⟨none, [], dataLine k.toClient, s', .at .flushing⟩, t, []⟩ : StreamNet Nat)) (act := .write k.toClient) nofun
      (flush_writes (M := serverMachine Toy.lib) (st := s') hk (by omega))
    rw [h]
    simp [streamWrote, streamPart, SideAct.rest, FullItem.stream?]
  refine ⟨_, _, _, StreamNet.runWithin_cons trivial s1 (StreamNet.runWithin_cons trivial s2 (StreamNet.runWithin_cons trivial s3
    (StreamNet.runWithin_cons trivial s4 (StreamNet.runWithin_cons (Nat.le_of_eq (Nat.zero_add _)) s5 rfl)))), ?_, rfl, ?_⟩
  · simp
  · rw [List.length_take]; omega

/-- Whatever the sockets can hold, both users can get stuck in `flush`. -/
theorem flush_run {k : Capacities} (hk : 0 < k.toServer ∧ 0 < k.toClient) :
    ∃ n G, StreamNetSample.plainStart.runWithin Toy.lib k (bothFlush k) = some (n, G) ∧
    (.client .refused ∉ G ∧ .server .refused ∉ G) ∧ (n.client.ctl = .at .flushing ∧ n.server.ctl = .at .flushing) ∧
    n.toServer.length = k.toServer ∧ n.toClient.length = k.toClient := by
  obtain ⟨n, G, h1, h2, h3⟩ := greet_run
  have h1' := StreamNet.runWithin_mono (k' := k) (k := one) (by simp only [one]; omega) h1
  obtain ⟨c, t, G2, h4, h5, h6, h7⟩ := client_flush h3 hk.1
  obtain ⟨nc, ⟨tls, rb, wb, st, ctl⟩, ts, tc⟩ := n
  obtain ⟨-, ⟨e1, e2, e3, e4, e5⟩, e6, e7⟩ := h3
  dsimp only at e1 e2 e3 e4 e5 e6 e7
  subst e1 e2 e3 e4 e6 e7
  obtain ⟨v, w, G3, h8, h9, h10, h11⟩ := server_flush (k := k) (c := c) (t := t) e5 hk.2
  refine ⟨_, _, StreamNet.runWithin_append h1' (StreamNet.runWithin_append h4 h8), ?_, ⟨h6, h10⟩, h7, h11⟩
  simp only [List.mem_append, not_or]
  exact ⟨⟨h2.1, h5.1, h9.1⟩, h2.2, h5.2, h9.2⟩

end SocketSample

end ImapFlow

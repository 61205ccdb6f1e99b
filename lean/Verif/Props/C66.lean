import Verif.Proofs.ExampleClients
import Verif.Proofs.ExampleScripts
import Verif.Spec.ExampleSamples

/-!
# C66: the example clients

`/repo/examples/client.rs`, `client_authenticate.rs` and `client_idle.rs` with any server: the server may send anything, the
connection may fail at any time, and the user may enter lines at any time.  `programEvents` are the events that the program
got from `next`, and `programCalls` the methods of the client that it called, both in order.
-/

namespace ImapFlow

variable {K : Type} {L : Lib} {g : HandleGenerator} {T : List (ProgramItem ClientError ClientEvent ClientOp)}

/-- `client.rs`: panics only if `next` fails (its `assert_eq!`s hold); the greeting comes first; LOGIN is enqueued once, as
soon as the greeting is there; it never ends by itself. -/
theorem C66_client (hL : L.Lawful) {login : Bytes} {x : Running K Examples.LoginVars Client}
    (h : ClientRuns L g (Examples.client login) x T) :
    x.Stands T ∧ GreetedFirst (programEvents T) ∧ x ≠ .over ∧
    programCalls T = if (programEvents T).isEmpty then [] else
      [.enqueueCommand { tag := ascii "A1", body := .other login }] := by
  obtain ⟨c, A, hA, h1, h2, h3⟩ := (Examples.client_kept hL g login).runs hL h
  have calls : ∀ v, Examples.LoginInv login v A →
      programCalls T = if (programEvents T).isEmpty then [] else [.enqueueCommand (Examples.loginCommand login)] := by
    intro v hI
    rw [← hA.calls]
    cases v with
    | greeting =>
      obtain ⟨-, h4, -, h5⟩ := hI
      have : programEvents T = [] := Classical.byContradiction fun hn => by rw [h3.2 hn] at h4; cases h4
      rw [this, h5]
      rfl
    | running hd =>
      obtain ⟨-, h4, -, h5⟩ := hI
      rw [h5]
      simp [h3.1 h4]
  refine ⟨h1, h2, ?_, ?_⟩
  · rintro rfl
    exact hA.kept
  · have hk := hA.kept
    cases x with
    | running v s => exact calls v hk.2
    | over => exact hk.elim
    | dead => obtain ⟨v, hk⟩ := hk; exact calls v hk

example : ∃ x T, ClientRuns (K := Nat) Toy.lib ClientSample.g (Examples.client (ClientSample.str "x")) x T ∧ x ≠ .dead ∧
    (programEvents T).length = 4 := by
  obtain ⟨x, T, h1, h2, -, -, h3⟩ := ExampleSample.of_summary ExampleSample.login_eq
  exact ⟨x, T, ⟨_, h1⟩, by simpa using h3, by rw [h2]; rfl⟩

/-- If the server closes the connection, `client.rs` panics. -/
example : ∃ T, ClientRuns (K := Nat) Toy.lib ClientSample.g (Examples.client (ClientSample.str "x")) .dead T ∧
    ∃ e, .nextFailed e ∈ T := by
  obtain ⟨x, T, h1, h2, -, -, h3⟩ := ExampleSample.of_summary ExampleSample.login_closed_eq
  obtain rfl := h3.2 rfl
  exact ⟨T, ⟨_, h1⟩, (C66_client Toy.lawful ⟨_, h1⟩).1.2.2 rfl⟩

/-- `client_authenticate.rs`: panics only if `next` fails (`set_authenticate_data` always succeeds); AUTHENTICATE is
enqueued once, as soon as the greeting is there; data is supplied once for each time the server asks for it, first the
name, then the password, then the cancellation; it ends exactly when the final status is there. -/
theorem C66_authenticate (hL : L.Lawful) {tag : Tag} {x : Running K Examples.AuthVars Client}
    (h : ClientRuns L g (Examples.clientAuthenticate L tag) x T) :
    x.Stands T ∧ GreetedFirst (programEvents T) ∧
    (∃ n, n = (programEvents T).countP ClientEvent.asksData ∧
      programCalls T = if (programEvents T).isEmpty then [] else
        .enqueueCommand { tag, body := .authenticate .login none } ::
        ((.continue (ascii "alice") :: .continue (ascii "password") :: List.replicate n AuthenticateData.cancel).take n).map
          .setAuthenticateData) ∧
    (x = .over ↔ ∃ h ca st, .authenticateStatusReceived h ca st ∈ programEvents T) ∧
    ∀ h ca st es1 es2, programEvents T = es1 ++ .authenticateStatusReceived h ca st :: es2 → es2 = [] := by
  obtain ⟨c, A, hA, h1, h2, h3⟩ := (Examples.clientAuthenticate_kept hL g tag).runs hL h
  have take : ∀ {ds : List AuthenticateData} {k : Nat},
      ds = (Examples.authDatas ++ List.replicate k AuthenticateData.cancel).take ds.length → ds.length ≤ k →
      ds = (.continue (ascii "alice") :: .continue (ascii "password") ::
        List.replicate ds.length AuthenticateData.cancel).take ds.length := by
    intro ds k h4 h5
    have : (Examples.authDatas ++ List.replicate k AuthenticateData.cancel).take ds.length =
        (Examples.authDatas ++ List.replicate ds.length AuthenticateData.cancel).take ds.length := by
      rw [List.take_append, List.take_append, List.take_replicate, List.take_replicate]
      congr 2
      omega
    rw [this] at h4
    exact h4
  have calls : ∀ {v A'}, Examples.AuthInv tag v A' → ((clientGist A').greeted = true ↔ A'.filterMap CItem.event? ≠ []) →
      (∃ n, n = (A'.filterMap CItem.event?).countP ClientEvent.asksData ∧
        A'.filterMap CItem.op? = if (A'.filterMap CItem.event?).isEmpty then [] else .enqueueCommand (Examples.authCommand tag) ::
          ((.continue (ascii "alice") :: .continue (ascii "password") :: List.replicate n AuthenticateData.cancel).take n).map
            .setAuthenticateData) ∧ ∀ e ∈ A'.filterMap CItem.event?, e.isTerminal = false := by
    intro v A' hI h3
    cases v with
    | greeting =>
      obtain ⟨-, h4, h5, -⟩ := hI
      have : A'.filterMap CItem.event? = [] := Classical.byContradiction fun hn => by
        have := h3.2 hn
        rw [h4] at this; cases this
      refine ⟨⟨_, rfl, ?_⟩, Client.no_terminal (by rw [h4])⟩
      rw [this, h5]
      rfl
    | running datas =>
      obtain ⟨-, hd, ds, k, h4, h5, h6, -, h7, h8⟩ := hI
      have hne := h3.1 (by rw [h4])
      refine ⟨⟨ds.length, ?_, ?_⟩, Client.no_terminal (by rw [h4])⟩
      · rw [← Examples.asks_count, h6]
      · rw [h5, ← take h7 h8]
        simp [hne]
  have running : ∀ {v}, x ≠ .over → Examples.AuthInv tag v A → (∃ n, n = (programEvents T).countP ClientEvent.asksData ∧
      programCalls T = if (programEvents T).isEmpty then [] else .enqueueCommand (Examples.authCommand tag) ::
        ((.continue (ascii "alice") :: .continue (ascii "password") :: List.replicate n AuthenticateData.cancel).take n).map
          .setAuthenticateData) ∧
    (x = .over ↔ ∃ h ca st, .authenticateStatusReceived h ca st ∈ programEvents T) ∧
    ∀ h ca st es1 es2, programEvents T = es1 ++ .authenticateStatusReceived h ca st :: es2 → es2 = [] := by
    intro v hx hI
    rw [← hA.calls, ← hA.events]
    obtain ⟨h4, h5⟩ := calls hI (by rw [hA.events]; exact h3)
    refine ⟨h4, ⟨fun h => (hx h).elim, ?_⟩, ?_⟩
    · rintro ⟨h, ca, st, hm⟩
      cases h5 _ hm
    · intro h ca st es1 es2 he
      cases h5 (.authenticateStatusReceived h ca st) (by rw [he]; simp)
  refine ⟨h1, h2, ?_⟩
  have hk := hA.kept
  cases x with
  | running v s => exact running nofun hk.2
  | dead => obtain ⟨v, hk⟩ := hk; exact running nofun hk
  | over =>
    obtain ⟨A', i, datas, h, ca, st, rfl, hi, hI⟩ := hk
    have he : programEvents T = A'.filterMap CItem.event? ++ [.authenticateStatusReceived h ca st] := by
      rw [← hA.events]; simp [hi]
    have hc : programCalls T = A'.filterMap CItem.op? := by
      rw [← hA.calls]; simp [op_event hi]
    have hne : A'.filterMap CItem.event? ≠ [] := by
      intro hn
      obtain ⟨gr, hg⟩ := (h2 [] (.authenticateStatusReceived h ca st) [] (by rw [he, hn])).2 rfl
      cases hg
    have hgr : (clientGist A').greeted = true := by
      obtain ⟨-, hd, ds, k, h4, -⟩ := hI
      rw [h4]
    obtain ⟨⟨n, h4, h5⟩, h6⟩ := calls hI ⟨fun _ => hne, fun _ => hgr⟩
    refine ⟨⟨n, ?_, ?_⟩, ⟨fun _ => ⟨h, ca, st, by rw [he]; simp⟩, fun _ => rfl⟩, ?_⟩
    · rw [he, List.countP_append, ← h4]
      rfl
    · rw [hc, h5, he]
      simp [hne, Examples.authCommand]
    · intro h' ca' st' es1 es2 hx
      rw [he] at hx
      rcases List.append_eq_append_iff.1 hx with ⟨as, h7, h8⟩ | ⟨bs, h7, h8⟩
      · cases as with
        | nil => simp only [List.nil_append, List.cons.injEq] at h8; exact h8.2.symm
        | cons y as => simp at h8
      · cases bs with
        | nil => simp only [List.nil_append, List.cons.injEq] at h8; exact h8.2
        | cons y bs =>
          simp only [List.cons_append, List.cons.injEq] at h8
          obtain ⟨rfl, -⟩ := h8
          cases h6 (.authenticateStatusReceived h' ca' st') (by rw [h7]; simp)

/-- The server asks three times. -/
example : ∃ T, ClientRuns (K := Nat) Toy.lib ClientSample.g
    (Examples.clientAuthenticate Toy.lib (ClientSample.str "A")) .over T ∧
    (programEvents T).countP ClientEvent.asksData = 3 := by
  obtain ⟨x, T, h1, h2, -, h3, -⟩ := ExampleSample.of_summary ExampleSample.authenticate_eq
  obtain rfl := h3.2 rfl
  exact ⟨T, ⟨_, h1⟩, by rw [h2]; rfl⟩

/-- `client_idle.rs`: panics only if `next` fails; IDLE is enqueued once, as soon as the greeting is there, and after that
`set_idle_done` is called once for each line of the user; a rejection of IDLE is its tagged response; the program ends exactly when, after a
rejection or after DONE was sent, a status with the tag of IDLE is there. -/
theorem C66_idle (hL : L.Lawful) {x : Running K Examples.IdleVars Client} (h : ClientRuns L g (Examples.clientIdle L) x T) :
    x.Stands T ∧ GreetedFirst (programEvents T) ∧
    programCalls T = (if (programEvents T).isEmpty then [] else .enqueueCommand { tag := ascii "A1", body := .idle } ::
      List.replicate ((programInputs T).countP ProgramInput.isLine) .setIdleDone) ∧
    (∀ h st, .idleRejected h st ∈ programEvents T → ∃ body, st = .tagged (ascii "A1") body) ∧
    (x = .over ↔ ∃ body, .statusReceived (.tagged (ascii "A1") body) ∈ afterIdle (programEvents T)) := by
  obtain ⟨as, hrun⟩ := h
  obtain ⟨-, hlines, -⟩ := (Examples.clientIdle_script (L := L) fun _ => True).client hL (Examples.clientIdle_kept hL g) hrun
    fun _ _ _ => trivial
  have h : ClientRuns L g (Examples.clientIdle L) x T := ⟨as, hrun⟩
  obtain ⟨c, A, hA, h1, h2, h3⟩ := (Examples.clientIdle_kept hL g).runs hL h
  have calls : ∀ {v A'}, Examples.IdleInv v A' → ((clientGist A').greeted = true ↔ A'.filterMap CItem.event? ≠ []) →
      (if (A'.filterMap CItem.event?).isEmpty then A'.filterMap CItem.op? = []
        else ∃ n, A'.filterMap CItem.op? = .enqueueCommand Examples.idleCommand :: List.replicate n .setIdleDone) ∧
      (∀ h st, .idleRejected h st ∈ A'.filterMap CItem.event? → ∃ body, st = .tagged (ascii "A1") body) ∧
      (∀ b, .statusReceived (.tagged Examples.idleCommand.tag b) ∉ afterIdle (A'.filterMap CItem.event?)) ∧
      (v = .ending → (A'.filterMap CItem.event?).any ClientEvent.endsIdle = true) := by
    intro v A' hI h3
    cases v with
    | greeting =>
      obtain ⟨-, -, h4, -, -, h5, h6⟩ := hI
      have : A'.filterMap CItem.event? = [] := Classical.byContradiction fun hn => by
        have := h3.2 hn
        rw [h4] at this; cases this
      exact ⟨by rw [this]; exact h5, h6.tag, h6.after, nofun⟩
    | idling =>
      obtain ⟨-, -, h4, -, -, h5, h6⟩ := hI
      have hne := h3.1 h4
      exact ⟨by simpa [hne] using h5, h6.tag, h6.after, nofun⟩
    | ending =>
      obtain ⟨-, -, h4, -, h5, h6⟩ := hI
      have hne := h3.1 h4
      exact ⟨by simpa [hne] using h5, h6.tag, h6.after, fun _ => h6.any⟩
  suffices hx : (if (programEvents T).isEmpty then programCalls T = []
        else ∃ n, programCalls T = .enqueueCommand Examples.idleCommand :: List.replicate n .setIdleDone) ∧
      (∀ h st, .idleRejected h st ∈ programEvents T → ∃ body, st = .tagged (ascii "A1") body) ∧
      (x = .over ↔ ∃ body, .statusReceived (.tagged (ascii "A1") body) ∈ afterIdle (programEvents T)) by
    refine ⟨h1, h2, ?_, hx.2⟩
    have := hx.1
    split at this
    · rename_i he; rw [if_pos he]; exact this
    · rename_i he
      obtain ⟨n, hn⟩ := this
      rw [if_neg he, ← hlines, hn, List.countP_cons, List.countP_replicate]
      rfl
  have running : ∀ {v}, x ≠ .over → Examples.IdleInv v A →
      (if (programEvents T).isEmpty then programCalls T = []
        else ∃ n, programCalls T = .enqueueCommand Examples.idleCommand :: List.replicate n .setIdleDone) ∧
      (∀ h st, .idleRejected h st ∈ programEvents T → ∃ body, st = .tagged (ascii "A1") body) ∧
      (x = .over ↔ ∃ body, .statusReceived (.tagged (ascii "A1") body) ∈ afterIdle (programEvents T)) := by
    intro v hx hI
    rw [← hA.calls, ← hA.events]
    obtain ⟨h4, h5, h6, -⟩ := calls hI (by rw [hA.events]; exact h3)
    exact ⟨h4, h5, fun h => (hx h).elim, fun ⟨b, hb⟩ => (h6 b hb).elim⟩
  have hk := hA.kept
  cases x with
  | running v s => exact running nofun hk.2
  | dead => obtain ⟨v, hk⟩ := hk; exact running nofun hk
  | over =>
    obtain ⟨A', i, body, rfl, hi, hI⟩ := hk
    have he : programEvents T = A'.filterMap CItem.event? ++ [.statusReceived (.tagged Examples.idleCommand.tag body)] := by
      rw [← hA.events]; simp [hi]
    have hc : programCalls T = A'.filterMap CItem.op? := by
      rw [← hA.calls]; simp [op_event hi]
    have hne : A'.filterMap CItem.event? ≠ [] := by
      intro hn
      obtain ⟨gr, hg⟩ := (h2 [] (.statusReceived (.tagged Examples.idleCommand.tag body)) [] (by rw [he, hn])).2 rfl
      cases hg
    obtain ⟨h4, h5, h6, h7⟩ := calls hI ⟨fun _ => hne, fun _ => hI.2.2.1⟩
    refine ⟨?_, ?_, fun _ => ⟨body, ?_⟩, fun _ => rfl⟩
    · rw [hc, he]
      simpa [hne] using h4
    · intro h st hm
      rw [he] at hm
      rcases List.mem_append.1 hm with hm | hm
      · exact h5 h st hm
      · cases List.mem_singleton.1 hm
    · rw [he, Examples.afterIdle_snoc, h7 rfl]
      exact List.mem_append_right _ (List.mem_singleton.2 rfl)

/-- The server accepts, the user enters a line, and the program ends. -/
example : ∃ T, ClientRuns (K := Nat) Toy.lib ClientSample.g (Examples.clientIdle Toy.lib) .over T ∧
    programCalls T = [.enqueueCommand Examples.idleCommand, .setIdleDone, .setIdleDone] := by
  obtain ⟨x, T, h1, -, h2, h3, -⟩ := ExampleSample.of_summary ExampleSample.idle_eq
  obtain rfl := h3.2 rfl
  exact ⟨T, ⟨_, h1⟩, h2⟩

/-- The server rejects, and the program does not end. -/
example : ∃ x T, ClientRuns (K := Nat) Toy.lib ClientSample.g (Examples.clientIdle Toy.lib) x T ∧ x ≠ .over ∧ x ≠ .dead ∧
    ∃ h st, .idleRejected h st ∈ programEvents T := by
  obtain ⟨x, T, h1, h2, -, h3, h4⟩ := ExampleSample.of_summary ExampleSample.rejected_eq
  exact ⟨x, T, ⟨_, h1⟩, by simpa using h3, by simpa using h4, ExampleSample.hd,
    .tagged (ClientSample.str "A1") { kind := .no, code := none, text := ClientSample.str "no" }, by rw [h2]; simp⟩

end ImapFlow

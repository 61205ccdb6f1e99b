import Verif.Proofs.ProxyMessages
import Verif.Props.C12
import Verif.Props.C25

/-!
# A connection of the proxy that waits for input
-/

namespace ImapFlow

variable {L : Lib} {gc gs : HandleGenerator}

/-- A server that waits for input has handed out everything, unless the last message it handed out was a reply of
its own. -/
theorem server_starved {o : ServerOptions} {gr : Greeting} {ops : List ServerOp} {s : Server} {V : List SItem}
    (h : (Server.new gs o gr).trace L ops = .ok (s, V ++ [.starved])) :
    ∃ n, n ≤ (serverMessages gr V).length ∧
      serverOutput V = ((serverMessages gr V).take n).flatMap (ServerMessage.bytes L) ∧
      (n = (serverMessages gr V).length ∨
        ∃ r, ((serverMessages gr V).take n).getLast? = some (.response none r)) := by
  obtain ⟨s1, h1, ⟨-, h2, h3, -⟩, -⟩ := Server.prefix_inv h
  rw [ServerView.of_outputs, ServerView.of_messages] at h2 h3
  refine ⟨_, h2, ?_, ?_⟩
  · rw [← ((ServerView.of_fields gr V).2.2.2.1), ServerView.of_outputs, List.flatMap_def, ← h3]
  · by_cases hq : ∃ W, V = W ++ [.quiet]
    · obtain ⟨W, rfl⟩ := hq
      right
      have h' : (Server.new gs o gr).trace L ops = .ok (s, W ++ .quiet :: [.starved]) := by simpa using h
      obtain ⟨h4, m, h5, h6⟩ := Server.trace_guard h'
      rw [ServerView.of_outputs] at h4
      rw [ServerView.of_messages] at h5
      have e1 : serverOutputs (W ++ [.quiet]) = serverOutputs W := by
        rw [serverOutputs_append]; simp [serverOutputs]
      have e2 : serverMessages gr (W ++ [.quiet]) = serverMessages gr W := by
        rw [serverMessages_append]; simp [SItem.enqueues]
      rw [e1, e2, h4]
      rcases m with g' | ⟨_ | hd, r⟩
      · cases h6
      · refine ⟨r, ?_⟩
        rw [List.getLast?_eq_getElem?, List.length_take]
        have : (ServerView.of gr W).finished < (serverMessages gr W).length := by
          rw [List.getElem?_eq_some_iff] at h5
          exact h5.1
        rw [Nat.min_eq_left (by omega), List.getElem?_take, if_pos (by omega)]
        exact h5
      · cases h6
    · exact .inl ((C25_server_partial h).2 fun W hW => hq ⟨W, hW⟩)

/-- If all commands are completely sent, the output consists of their encodings. -/
theorem ended_wires {E : List (RawHandle × Command)} {en : List ClientEnded}
    (hlen : en.length = E.length) (hreg : ∀ x ∈ E, x.2.isRegular = true)
    (hsync : ∀ x ∈ E, ∀ d, .literal d .sync ∉ L.encodeCommand x.2)
    (hE : ∀ (n : Nat) e, en[n]? = some e → ∃ x, E[n]? = some x ∧ EndedAs L x e) :
    en.flatMap ClientEnded.sent = E.flatMap fun x => wire (L.encodeCommand x.2) := by
  induction en generalizing E with
  | nil =>
    cases E with
    | nil => rfl
    | cons x E => cases hlen
  | cons e en ih =>
    cases E with
    | nil => cases hlen
    | cons y E =>
      obtain ⟨x, hx, hen⟩ := hE 0 e (by simp)
      simp only [List.getElem?_cons_zero, Option.some.injEq] at hx
      subst hx
      obtain ⟨b, hb⟩ := Command.body_of_regular (hreg y (by simp))
      unfold EndedAs at hen
      rw [hb] at hen
      rw [List.flatMap_cons, List.flatMap_cons, ih (by simpa using hlen) (fun x hx => hreg x (by simp [hx]))
        (fun x hx => hsync x (by simp [hx])) (fun n e' he' => by simpa using hE (n + 1) e' (by simpa using he'))]
      rcases hen with ⟨-, e1⟩ | ⟨st, e1, pre, d, post, he, -⟩
      · rw [e1]
      · exact (hsync y (by simp) d (by rw [he]; simp)).elim

/-- A client that waits for input has handed out all commands, if they have no synchronizing literals. -/
theorem client_starved (hL : L.Lawful) {o : ClientOptions} {ops : List ClientOp} {c : Client} {U : List CItem}
    (h : (Client.new gc o).trace L ops = .ok (c, U ++ [.starved])) (hg : clientGreeted U)
    (hreg : ∀ x ∈ clientEnqueued U, x.2.isRegular = true)
    (hsync : ∀ x ∈ clientEnqueued U, ∀ d, .literal d .sync ∉ L.encodeCommand x.2) :
    clientOutput U = (clientEnqueued U).flatMap fun x => wire (L.encodeCommand x.2) := by
  have hw : Waiting L (ClientView.of U) := C25_client_nothing_to_send hL h hg
  obtain ⟨f1, f2, f3, f4, f5⟩ := ClientView.of_fields U
  rcases hw with ⟨hf, hr⟩ | ⟨hd, cmd, q, hr, hs, hcase⟩
  · have he : EndedOk L (ClientView.of U) := by
      have := Client.trace_ended hL h
      rwa [ClientView.of_snoc] at this
    have hr : (ClientView.of U).enqueued.drop (ClientView.of U).ended.length = [] := hr
    rw [← f5, hf.1, List.append_nil, ← f3]
    rw [← f3] at hreg hsync
    refine ended_wires ?_ hreg hsync he
    have h1 := List.drop_eq_nil_iff.mp hr
    rcases Nat.eq_zero_or_pos (ClientView.of U).ended.length with h0 | h0
    · omega
    · obtain ⟨x, hx, -⟩ := he ((ClientView.of U).ended.length - 1) _ (List.getElem?_eq_getElem (by omega))
      have := (List.getElem?_eq_some_iff.mp hx).1
      omega
  · exfalso
    have hm : (hd, cmd) ∈ clientEnqueued U := by
      rw [← f3]
      refine List.mem_of_mem_drop (i := (ClientView.of U).ended.length) ?_
      rw [show (ClientView.of U).enqueued.drop _ = _ from hr]
      exact List.mem_cons_self
    have hn := hreg _ hm
    rcases hcase with ⟨-, -, pre, d, post, he, -⟩ | ⟨ha, -⟩ | ⟨hi, -⟩
    · refine hsync _ hm d ?_
      show _ ∈ L.encodeCommand cmd
      rw [he]; simp
    · obtain ⟨t, b⟩ := cmd; cases b <;> first | (cases ha; done) | (cases hn; done)
    · obtain ⟨t, b⟩ := cmd; cases b <;> first | (cases hi; done) | (cases hn; done)

end ImapFlow

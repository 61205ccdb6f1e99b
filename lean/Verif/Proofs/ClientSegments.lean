import Verif.Proofs.ClientView

/-!
# The segments of the client's output
-/

namespace ImapFlow

theorem Command.body_of_regular {c : Command} (h : c.isRegular = true) : ∃ o, c.body = .other o := by
  unfold isRegular at h
  cases hb : c.body <;> simp [hb] at h ⊢

theorem Command.body_of_authenticate {c : Command} (h : c.isAuthenticate = true) :
    ∃ m ir, c.body = .authenticate m ir := by
  unfold isAuthenticate at h
  cases hb : c.body <;> simp [hb] at h ⊢

theorem Command.body_of_idle {c : Command} (h : c.isIdle = true) : c.body = .idle := by
  unfold isIdle at h
  cases hb : c.body <;> simp [hb] at h ⊢

theorem terminal_sent {L : Lib} {v : ClientView} {e : ClientEvent} (h : SentGuard L v e)
    (ht : e.isTerminal = true) :
    ∃ x q, v.remaining = x :: q ∧ EndedAs L x ⟨e, v.sent, v.datas⟩ := by
  obtain ⟨hd, cmd, q, hrem, h⟩ := h
  refine ⟨(hd, cmd), q, hrem, ?_⟩
  unfold EndedAs
  rcases h with ⟨rfl, hr, h1, h2, h3⟩ | ⟨rfl, -⟩ | ⟨rfl, -⟩ | ⟨rfl, hi, h1, h2, h3, h4⟩
  · obtain ⟨o, ho⟩ := Command.body_of_regular hr
    simp only [ho]
    exact .inl ⟨by simp, h2⟩
  · cases ht
  · cases ht
  · simp only [Command.body_of_idle hi]
    exact .inl ⟨by simp, h4⟩

theorem ClientView.remaining_of_current {v : ClientView} {x : RawHandle × Command} (h : v.current = some x) :
    ∃ q, v.remaining = x :: q := by
  unfold current at h
  split at h
  · cases h
  · cases hr : v.remaining with
    | nil => rw [hr] at h; cases h
    | cons y q => rw [hr] at h; simp at h; exact ⟨q, by rw [h]⟩

theorem terminal_received {L : Lib} {v : ClientView} {r : Response} {e : ClientEvent} (h : v.route r = some e)
    (hw : Waiting L v) (ht : e.isTerminal = true) :
    ∃ x q, v.remaining = x :: q ∧ v.current = some x ∧ EndedAs L x ⟨e, v.sent, v.datas⟩ := by
  cases r with
  | data d => simp only [ClientView.route, Option.some.injEq] at h; subst h; cases ht
  | continuationRequest q =>
    simp only [ClientView.route] at h
    split at h
    · simp only [Option.some.injEq] at h; subst h; cases ht
    · split at h
      · cases h
      · split at h <;> (simp only [Option.some.injEq] at h; subst h; cases ht)
      · split at h <;> (simp only [Option.some.injEq] at h; subst h; cases ht)
  | status st =>
    simp only [ClientView.route] at h
    cases hc : v.current with
    | none => simp only [hc, Option.some.injEq] at h; subst h; cases ht
    | some x =>
      obtain ⟨hd, cmd⟩ := x
      obtain ⟨q, hrem⟩ := ClientView.remaining_of_current hc
      rcases hw with ⟨-, hw⟩ | ⟨hd', cmd', q', hrem', hs, hw⟩
      · rw [hw] at hrem; cases hrem
      rw [hrem] at hrem'
      simp only [List.cons.injEq, Prod.mk.injEq] at hrem'
      obtain ⟨⟨rfl, rfl⟩, rfl⟩ := hrem'
      refine ⟨(hd, cmd), q, hrem, rfl, ?_⟩
      rw [hc] at h
      cases st with
      | tagged tag body =>
        simp only at h
        split at h
        · unfold EndedAs
          simp only
          split at h
          · rename_i o ho
            split at h
            · simp only [Option.some.injEq] at h; subst h
              try simp only [ho]
              right
              refine ⟨_, rfl, ?_⟩
              rcases hw with ⟨-, -, pre, d, post, h1, h2, -⟩ | ⟨h1, -⟩ | ⟨h1, -⟩
              · exact ⟨pre, d, post, h1, h2⟩
              · simp [Command.isAuthenticate, ho] at h1
              · simp [Command.isIdle, ho] at h1
            · simp only [Option.some.injEq] at h; subst h; cases ht
          · rename_i m ir ho
            simp only [Option.some.injEq] at h; subst h
            try simp only [ho]
            refine ⟨_, rfl, ?_⟩
            rcases hw with ⟨h1, -⟩ | ⟨-, -, h1, -⟩ | ⟨h1, -⟩
            · simp [Command.isRegular, ho] at h1
            · exact h1
            · simp [Command.isIdle, ho] at h1
          · rename_i ho
            simp only [Option.some.injEq] at h; subst h
            try simp only [ho]
            right
            refine ⟨_, rfl, ?_⟩
            rcases hw with ⟨h1, -⟩ | ⟨h1, -⟩ | ⟨-, -, -, h1, -⟩
            · simp [Command.isRegular, ho] at h1
            · simp [Command.isAuthenticate, ho] at h1
            · exact h1
        · simp only [Option.some.injEq] at h; subst h; cases ht
      | _ => simp only [Option.some.injEq] at h; subst h; cases ht

/-- The ended commands match the enqueued commands. -/
def EndedOk (L : Lib) (v : ClientView) : Prop :=
  ∀ (n : Nat) en, v.ended[n]? = some en → ∃ x, v.enqueued[n]? = some x ∧ EndedAs L x en

theorem EndedOk.terminate {L : Lib} {v : ClientView} {e : ClientEvent} {x : RawHandle × Command}
    {q : List (RawHandle × Command)} (h : EndedOk L v) (hrem : v.remaining = x :: q)
    (hx : EndedAs L x ⟨e, v.sent, v.datas⟩) : EndedOk L (v.terminate e) := by
  intro n en hn
  have hn : (v.ended ++ [(⟨e, v.sent, v.datas⟩ : ClientEnded)])[n]? = some en := hn
  rw [List.getElem?_append] at hn
  split at hn
  · exact h n en hn
  · have : n = v.ended.length := by
      by_cases h0 : n - v.ended.length = 0
      · omega
      · obtain ⟨k, hk⟩ := Nat.exists_eq_succ_of_ne_zero h0
        rw [hk] at hn; simp at hn
    subst this
    simp only [Nat.sub_self, List.getElem?_cons_zero, Option.some.injEq] at hn
    subst hn
    refine ⟨x, ?_, hx⟩
    show v.enqueued[v.ended.length]? = some x
    have := congrArg (fun l => l[0]?) hrem
    simpa [ClientView.remaining] using this

theorem EndedOk.event {L : Lib} {v : ClientView} {e : ClientEvent} (h : EndedOk L v)
    (hx : e.isTerminal = true → ∃ x q, v.remaining = x :: q ∧ EndedAs L x ⟨e, v.sent, v.datas⟩) :
    EndedOk L (v.event e) := by
  unfold ClientView.event
  by_cases ht : e.isTerminal = true
  · rw [if_pos ht]
    obtain ⟨x, q, h1, h2⟩ := hx ht
    exact h.terminate h1 h2
  · rw [if_neg ht]
    split <;> exact h

theorem EndedOk.observe {L : Lib} {relaxed : Bool} {v : ClientView} {i : CItem}
    (h : EndedOk L v) (hg : Client.Guard L relaxed v i) : EndedOk L (v.observe i) := by
  cases i with
  | enqueue hd c =>
    intro n en hn
    obtain ⟨x, h1, h2⟩ := h n en hn
    refine ⟨x, ?_, h2⟩
    show (v.enqueued ++ [(hd, c)])[n]? = some x
    rw [List.getElem?_append_left (by
      rw [List.getElem?_eq_some_iff] at h1; exact h1.1)]
    exact h1
  | setAuth d r => cases r <;> exact h
  | setDone r => cases r <;> exact h
  | sent e =>
    exact EndedOk.event h (fun ht => terminal_sent hg.2 ht)
  | received w e =>
    obtain ⟨h1, -, ⟨-, g, rfl, -⟩ | ⟨hgr, r, hr, -⟩⟩ := hg
    · exact h
    · refine EndedOk.event (v := { v with consumed := v.consumed ++ w }) h (fun ht => ?_)
      obtain ⟨x, q, h2, -, h3⟩ := terminal_received hr (h1 hgr) ht
      exact ⟨x, q, h2, h3⟩
  | _ => exact h

theorem Client.trace_ended {L : Lib} (hL : L.Lawful) {g : HandleGenerator} {o : ClientOptions}
    {ops : List ClientOp} {c : Client} {T : List CItem}
    (h : (Client.new g o).trace L ops = .ok (c, T)) : EndedOk L (ClientView.of T) := by
  have hs := trace_steps h
  clear h
  induction T using snocInduction generalizing c with
  | nil => intro n en hn; simp [ClientView.of, ClientView.start] at hn
  | snoc T i ih =>
    obtain ⟨c1, h1, h2⟩ := hs.split
    rw [ClientView.of_snoc]
    cases h2 with
    | cons a _ => exact (ih h1).observe (step_inv hL (steps_inv hL (new_inv L g o) h1) a).1

theorem EndedAs.reports {L : Lib} {x : RawHandle × Command} {en : ClientEnded} (h : EndedAs L x en) :
    en.event.Reports x.1 x.2 := by
  obtain ⟨hd, tag, body⟩ := x
  unfold EndedAs at h
  unfold ClientEvent.Reports
  cases body with
  | other o =>
    rcases h with ⟨h, -⟩ | ⟨st, h, -⟩
    · exact .inl h
    · exact .inr (.inl ⟨st, h⟩)
  | authenticate m ir =>
    obtain ⟨st, h, -⟩ := h
    exact .inr (.inr (.inl ⟨⟨tag, m, ir⟩, st, rfl, h⟩))
  | idle =>
    rcases h with ⟨h, -⟩ | ⟨st, h, -⟩
    · exact .inr (.inr (.inr ⟨rfl, .inl h⟩))
    · exact .inr (.inr (.inr ⟨rfl, .inr ⟨st, h⟩⟩))

/-- The open segment. -/
theorem SendOk.open {L : Lib} {v : ClientView} {s : ClientSendState} (h : SendOk L v s) (hs : v.sent ≠ []) :
    ∃ x, v.enqueued[v.ended.length]? = some x ∧ v.current = some x ∧ OpenAs L x v.sent v.datas := by
  obtain ⟨hv, h⟩ := h
  cases hc : s.currentMessage with
  | none => rw [hc] at h; exact (hs h.1.1).elim
  | some cur =>
    rw [hc] at h
    obtain ⟨hcok, -, hrem⟩ := h
    refine ⟨cur.queued, ?_, ClientView.current_some hs hrem, ?_⟩
    · have := congrArg (fun l => l[0]?) hrem
      simpa [ClientView.remaining] using this
    · cases cur with
      | command st =>
        obtain ⟨hreg, -, -, -, -, -, h⟩ := hcok
        obtain ⟨o, ho⟩ := Command.body_of_regular hreg
        unfold OpenAs
        simp only [ClientCurrent.queued, ho]
        cases ha : st.activity with
        | pushingFragments a =>
          cases a with
          | none => rw [ha] at h; exact (hs h.1).elim
          | some d =>
            rw [ha] at h
            obtain ⟨pre, h1, h2, -⟩ := h
            exact ⟨pre, _, h1, h2, .inr ⟨_, _, rfl⟩⟩
        | waitingForFragmentsSent a =>
          rw [ha] at h
          cases a with
          | none => exact ⟨_, [], by simp, h.1, .inl rfl⟩
          | some d =>
            obtain ⟨pre, h1, h2, -⟩ := h
            exact ⟨pre, _, h1, h2, .inr ⟨_, _, rfl⟩⟩
        | waitingForLiteralAccepted d =>
          rw [ha] at h
          obtain ⟨pre, h1, h2, -⟩ := h
          exact ⟨pre, _, h1, h2, .inr ⟨_, _, rfl⟩⟩
      | authenticate st =>
        obtain ⟨-, -, -, h⟩ := hcok
        show ∃ ds, ds <+: v.datas ∧ v.sent = _ ++ wireDatas L ds
        cases ha : st.activity with
        | pushingAuthenticate b => rw [ha] at h; exact (hs h.1).elim
        | waitingForAuthenticateSent =>
          rw [ha] at h
          exact ⟨[], List.nil_prefix, by rw [h.2.1]; simp [wireDatas, ClientCurrent.queued]⟩
        | waitingForAuthenticateResponse => rw [ha] at h; exact ⟨_, List.prefix_refl _, h.2.1⟩
        | waitingForAuthenticateDataSet => rw [ha] at h; exact ⟨_, List.prefix_refl _, h.2.1⟩
        | pushingAuthenticateData b =>
          rw [ha] at h
          obtain ⟨-, ds, d, h1, -, h2, -⟩ := h
          exact ⟨ds, by rw [h1]; exact List.prefix_append .., h2⟩
        | waitingForAuthenticateDataSent => rw [ha] at h; exact ⟨_, List.prefix_refl _, h.2.1⟩
      | idle st =>
        obtain ⟨-, -, -, h⟩ := hcok
        show v.sent = _ ∨ v.sent = _
        cases ha : st.activity with
        | pushingIdle b => rw [ha] at h; exact (hs h.1).elim
        | waitingForIdleSent => rw [ha] at h; exact .inl h.2.1
        | waitingForIdleResponse => rw [ha] at h; exact .inl h.2.1
        | waitingForIdleDoneSet => rw [ha] at h; exact .inl h.2.1
        | pushingIdleDone b => rw [ha] at h; exact .inl h.2.1
        | waitingForIdleDoneSent => rw [ha] at h; exact .inr h.2.1

end ImapFlow

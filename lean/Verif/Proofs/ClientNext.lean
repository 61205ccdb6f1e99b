import Verif.Proofs.ClientReads
import Verif.Proofs.ClientSegments

/-!
# What `next` does when something can be sent
-/

namespace ImapFlow

theorem wire_command_ne {L : Lib} (hL : L.Lawful) (c : Command) : wire (L.encodeCommand c) ≠ [] := by
  obtain ⟨d, rest, h1, h2⟩ := hL.encodeCommand c
  rw [h1, wire_cons]
  simp [Fragment.data, h2]

theorem Waiting.sent_ne {L : Lib} {v : ClientView} (h : Waiting L v) (hr : v.remaining ≠ []) : v.sent ≠ [] := by
  rcases h with ⟨-, h⟩ | ⟨_, _, _, -, h, -⟩
  · exact (hr h).elim
  · exact h

/-- With a queued command and nothing current, `next` outputs the beginning of the command. -/
theorem next_starts {L : Lib} (hL : L.Lawful) {relaxed : Bool} {v : ClientView} {i : CItem} {x : RawHandle × Command}
    {q : List (RawHandle × Command)} (hg : Client.Guard L relaxed v i) (hi : i.isNext = true)
    (hgr : v.greeted = true) (hs : v.sent = []) (hrem : v.remaining = x :: q) :
    ∃ b, i = .output b ∧ b ≠ [] ∧ b <+: wire (L.encodeCommand x.2) := by
  have hw : ¬ Waiting L v := fun hw => hw.sent_ne (by rw [hrem]; simp) hs
  cases i with
  | enqueue => cases hi
  | input => cases hi
  | setAuth => cases hi
  | setDone => cases hi
  | output b =>
    refine ⟨b, rfl, hg.2.1, ?_⟩
    obtain ⟨-, -, h, cmd, q', h1, h2⟩ := hg
    rw [hrem] at h1
    cases h1
    rw [hs] at h2
    rcases h2 with ⟨-, -, pre, post, h3, h4, -⟩ | ⟨-, ⟨-, -, h3⟩ | ⟨ds, d, -, -, h3, -⟩⟩ | ⟨-, -, ⟨-, h3⟩ | ⟨h3, -⟩⟩
    · simp only [List.nil_append] at h4
      rw [h4, h3, wire_append]
      exact List.prefix_append ..
    · rw [h3]; exact List.prefix_refl _
    · exact (wire_command_ne hL cmd (List.append_eq_nil_iff.mp h3.symm).1).elim
    · rw [h3]; exact List.prefix_refl _
    · exact (wire_command_ne hL cmd h3.symm).elim
  | sent e =>
    obtain ⟨-, h, cmd, q', h1, h2⟩ := hg
    rw [hs] at h2
    rcases h2 with ⟨-, -, -, h3, -⟩ | ⟨-, -, -, h3, -⟩ | ⟨-, -, -, h3, -⟩ | ⟨-, -, -, -, -, h3⟩
    · exact (wire_command_ne hL cmd h3.symm).elim
    · exact (wire_command_ne hL cmd h3.symm).elim
    · exact (wire_command_ne hL cmd h3.symm).elim
    · exact (wire_command_ne hL cmd (List.append_eq_nil_iff.mp h3.symm).1).elim
  | received w e => exact (hw (hg.1 hgr)).elim
  | released w => exact (hw hg.2.1).elim
  | failed e => exact (hw (hg.1 hgr)).elim
  | starved => exact (hw (hg.1 hgr)).elim

/-- Data was supplied and is not output yet. -/
def DataPending (L : Lib) (v : ClientView) (d : AuthenticateData) : Prop :=
  v.greeted = true ∧ ∃ h cmd q ds, v.remaining = (h, cmd) :: q ∧ cmd.isAuthenticate = true ∧ v.datas = ds ++ [d] ∧
    v.asked = v.datas.length ∧ v.started = true ∧ v.sent = wire (L.encodeCommand cmd) ++ wireDatas L ds

theorem Command.kind_excl (c : Command) : (c.isAuthenticate = true → c.isRegular = false ∧ c.isIdle = false) ∧
    (c.isIdle = true → c.isRegular = false ∧ c.isAuthenticate = false) := by
  unfold isAuthenticate isIdle isRegular
  cases c.body <;> simp

theorem DataPending.next {L : Lib} (hL : L.Lawful) {relaxed : Bool} {v : ClientView} {i : CItem}
    {d : AuthenticateData} (h : DataPending L v d) (hg : Client.Guard L relaxed v i) (hi : i.isNext = true) :
    i = .output (wire (L.encodeAuthenticateData d)) := by
  obtain ⟨hgr, hd, cmd, q, ds, hrem, ha, hds, has, hst, hs⟩ := h
  obtain ⟨hn1, hn2⟩ := (Command.kind_excl cmd).1 ha
  have hne : v.sent ≠ [] := by rw [hs]; simp [wire_command_ne hL]
  have hw : ¬ Waiting L v := by
    rintro (⟨hf, -⟩ | ⟨h, cmd', q', hrem', -, h2⟩)
    · exact hne hf.1
    · rw [hrem] at hrem'; cases hrem'
      rcases h2 with ⟨h3, -⟩ | ⟨-, -, h3, -⟩ | ⟨h3, -⟩
      · rw [hn1] at h3; cases h3
      · rw [hs, hds, wireDatas_append, wireDatas_singleton, List.append_cancel_left_eq] at h3
        have := congrArg List.length h3
        have h4 := (hL.encodeData d).wire_ne
        rw [← List.length_pos_iff] at h4
        simp only [List.length_append] at this
        omega
      · rw [hn2] at h3; cases h3
  cases i with
  | enqueue => cases hi
  | input => cases hi
  | setAuth => cases hi
  | setDone => cases hi
  | output b =>
    obtain ⟨-, -, h, cmd', q', h1, h2⟩ := hg
    rw [hrem] at h1
    cases h1
    rcases h2 with ⟨h3, -⟩ | ⟨-, ⟨h3, -⟩ | ⟨ds', d', h3, -, -, h4⟩⟩ | ⟨h3, -⟩
    · rw [hn1] at h3; cases h3
    · exact (hne h3).elim
    · rw [hds] at h3
      have := List.append_inj_right' h3 rfl
      cases this
      rw [h4]
    · rw [hn2] at h3; cases h3
  | sent e =>
    obtain ⟨-, h, cmd', q', h1, h2⟩ := hg
    rw [hrem] at h1
    cases h1
    rcases h2 with ⟨-, h3, -⟩ | ⟨-, -, h3, -⟩ | ⟨-, h3, -⟩ | ⟨-, h3, -⟩
    · rw [hn1] at h3; cases h3
    · rw [hst] at h3; cases h3
    · rw [hn2] at h3; cases h3
    · rw [hn2] at h3; cases h3
  | received w e => exact (hw (hg.1 hgr)).elim
  | released w => exact (hw hg.2.1).elim
  | failed e => exact (hw (hg.1 hgr)).elim
  | starved => exact (hw (hg.1 hgr)).elim

theorem ClientView.enqueued_remaining {v : ClientView} {x y : RawHandle × Command} {q : List (RawHandle × Command)}
    (h : v.remaining = x :: q) :
    ({ v with enqueued := v.enqueued ++ [y] } : ClientView).remaining = x :: (q ++ [y]) := by
  rw [ClientView.remaining_enqueue, h]; rfl
  have := congrArg List.length h
  simp only [remaining, List.length_drop, List.length_cons] at this
  omega

theorem ClientView.current_head {v : ClientView} {x : RawHandle × Command} {q : List (RawHandle × Command)}
    (hs : v.sent ≠ []) (h : v.remaining = x :: q) : v.current = some x := by
  rw [current, if_neg hs, h]; rfl

theorem DataPending.skip {L : Lib} (hL : L.Lawful) {relaxed : Bool} {v : ClientView} {i : CItem}
    {d : AuthenticateData} (h : DataPending L v d) (hg : Client.Guard L relaxed v i) (hi : i.isNext = false) :
    DataPending L (v.observe i) d := by
  have h' := h
  obtain ⟨hgr, hd, cmd, q, ds, hrem, ha, hds, has, hst, hs⟩ := h
  obtain ⟨hn1, hn2⟩ := (Command.kind_excl cmd).1 ha
  have hne : v.sent ≠ [] := by rw [hs]; simp [wire_command_ne hL]
  have hcur := ClientView.current_head hne hrem
  cases i with
  | enqueue h c => exact ⟨hgr, hd, cmd, _, ds, ClientView.enqueued_remaining hrem, ha, hds, has, hst, hs⟩
  | input b => exact h'
  | setAuth d' r =>
    have hr : r = .error d' := by
      have : r = v.authReply d' := hg
      rw [this, ClientView.authReply, hcur]
      simp only [has]
      rw [if_neg]
      rintro ⟨-, h⟩; omega
    subst hr
    exact h'
  | setDone r =>
    have hr : r = none := by
      have : r = v.doneReply := hg
      rw [this, ClientView.doneReply, hcur]
      simp [hn2]
    subst hr
    exact h'
  | _ => cases hi

/-- DONE was requested and is not output yet. -/
def DonePending (L : Lib) (v : ClientView) : Prop :=
  v.greeted = true ∧ ∃ h cmd q, v.remaining = (h, cmd) :: q ∧ cmd.isIdle = true ∧
    v.started = true ∧ v.accepted = true ∧ v.doneSet = true ∧ v.sent = wire (L.encodeCommand cmd)

theorem DonePending.next {L : Lib} (hL : L.Lawful) {relaxed : Bool} {v : ClientView} {i : CItem}
    (h : DonePending L v) (hg : Client.Guard L relaxed v i) (hi : i.isNext = true) :
    i = .output (wire L.encodeIdleDone) := by
  obtain ⟨hgr, hd, cmd, q, hrem, ha, hst, hac, hdo, hs⟩ := h
  obtain ⟨hn1, hn2⟩ := (Command.kind_excl cmd).2 ha
  have hne : v.sent ≠ [] := by rw [hs]; simp [wire_command_ne hL]
  have hw : ¬ Waiting L v := by
    rintro (⟨hf, -⟩ | ⟨h, cmd', q', hrem', -, h2⟩)
    · exact hne hf.1
    · rw [hrem] at hrem'; cases hrem'
      rcases h2 with ⟨h3, -⟩ | ⟨h3, -⟩ | ⟨-, -, -, -, h3⟩
      · rw [hn1] at h3; cases h3
      · rw [hn2] at h3; cases h3
      · rw [hdo] at h3; cases h3
  cases i with
  | enqueue => cases hi
  | input => cases hi
  | setAuth => cases hi
  | setDone => cases hi
  | output b =>
    obtain ⟨-, -, h, cmd', q', h1, h2⟩ := hg
    rw [hrem] at h1
    cases h1
    rcases h2 with ⟨h3, -⟩ | ⟨h3, -⟩ | ⟨-, -, ⟨h3, -⟩ | ⟨-, -, -, h3⟩⟩
    · rw [hn1] at h3; cases h3
    · rw [hn2] at h3; cases h3
    · exact (hne h3).elim
    · rw [h3]
  | sent e =>
    obtain ⟨-, h, cmd', q', h1, h2⟩ := hg
    rw [hrem] at h1
    cases h1
    rcases h2 with ⟨-, h3, -⟩ | ⟨-, h3, -⟩ | ⟨-, -, h3, -⟩ | ⟨-, -, -, -, -, h3⟩
    · rw [hn1] at h3; cases h3
    · rw [hn2] at h3; cases h3
    · rw [hst] at h3; cases h3
    · rw [hs] at h3
      exact (hL.encodeDone.wire_ne (by simpa using h3)).elim
  | received w e => exact (hw (hg.1 hgr)).elim
  | released w => exact (hw hg.2.1).elim
  | failed e => exact (hw (hg.1 hgr)).elim
  | starved => exact (hw (hg.1 hgr)).elim

theorem DonePending.skip {L : Lib} (hL : L.Lawful) {relaxed : Bool} {v : ClientView} {i : CItem}
    (h : DonePending L v) (hg : Client.Guard L relaxed v i) (hi : i.isNext = false) :
    DonePending L (v.observe i) := by
  have h' := h
  obtain ⟨hgr, hd, cmd, q, hrem, ha, hst, hac, hdo, hs⟩ := h
  obtain ⟨hn1, hn2⟩ := (Command.kind_excl cmd).2 ha
  have hne : v.sent ≠ [] := by rw [hs]; simp [wire_command_ne hL]
  have hcur := ClientView.current_head hne hrem
  cases i with
  | enqueue h c => exact ⟨hgr, hd, cmd, _, ClientView.enqueued_remaining hrem, ha, hst, hac, hdo, hs⟩
  | input b => exact h'
  | setAuth d' r =>
    have hr : r = .error d' := by
      have : r = v.authReply d' := hg
      rw [this, ClientView.authReply, hcur]
      simp [hn2]
    subst hr
    exact h'
  | setDone r =>
    have hr : r = none := by
      have : r = v.doneReply := hg
      rw [this, ClientView.doneReply, hcur]
      simp [hdo]
    subst hr
    exact h'
  | _ => cases hi

/-- After data was accepted it is pending. -/
theorem setAuth_pending {L : Lib} {relaxed : Bool} {v : ClientView} {c : Client} {d : AuthenticateData}
    {h : RawHandle} (hi : c.Inv L relaxed v) (hg : Client.Guard L relaxed v (.setAuth d (.ok h))) :
    DataPending L (v.observe (.setAuth d (.ok h))) d := by
  have hr : v.authReply d = .ok h := hg.symm
  obtain ⟨hso, hrc⟩ := hi
  unfold ClientView.authReply at hr
  cases hc : v.current with
  | none => rw [hc] at hr; cases hr
  | some x =>
    obtain ⟨h', cmd⟩ := x
    rw [hc] at hr
    simp only at hr
    split at hr
    · rename_i hcond
      obtain ⟨ha, has⟩ := hcond
      rcases hso.fresh_or with ⟨h1, h2⟩ | ⟨cur, h1, h2⟩
      · rw [hc] at h2; cases h2
      · rw [hc] at h2
        have hgr : v.greeted = true := by
          cases hrs : c.receiveState with
          | dummy => rw [hrs] at hrc; exact hrc.elim
          | greeting st =>
            rw [hrs] at hrc
            have := hrc.2.2.2.2
            rw [h1] at this
            cases this
          | response st => rw [hrs] at hrc; exact hrc.1
        obtain ⟨hv, hso⟩ := hso
        rw [h1] at hso
        obtain ⟨hcok, hs, hrem⟩ := hso
        cases cur with
        | command st =>
          simp only [ClientCurrent.queued, Option.some.injEq, Prod.mk.injEq] at h2
          have e1 := ((Command.kind_excl _).1 ha).1
          rw [h2.2, hcok.1] at e1
          cases e1
        | idle st =>
          simp only [ClientCurrent.queued, Option.some.injEq, Prod.mk.injEq] at h2
          rw [h2.2] at ha
          cases ha
        | authenticate st =>
          obtain ⟨k1, k2, k3, hact⟩ := hcok
          have hcmd : cmd = st.commandAuthenticate.toCommand := by
            simp only [ClientCurrent.queued, Option.some.injEq, Prod.mk.injEq] at h2
            exact h2.2
          have hfin : v.started = true ∧ v.sent = wire (L.encodeCommand cmd) ++ wireDatas L v.datas := by
            rw [hcmd]
            cases hact' : st.activity with
            | pushingAuthenticate b => rw [hact'] at hact; exact (hs hact.1).elim
            | waitingForAuthenticateSent =>
              rw [hact'] at hact
              obtain ⟨-, -, e1, e2⟩ := hact
              rw [e1, e2] at has; cases has
            | waitingForAuthenticateResponse =>
              rw [hact'] at hact
              have := hact.2.2
              omega
            | waitingForAuthenticateDataSet => rw [hact'] at hact; exact ⟨hact.1, hact.2.1⟩
            | pushingAuthenticateData b =>
              rw [hact'] at hact
              obtain ⟨-, ds, d, -, -, -, e1⟩ := hact
              omega
            | waitingForAuthenticateDataSent =>
              rw [hact'] at hact
              have := hact.2.2
              omega
          obtain ⟨q, hrem'⟩ := ClientView.remaining_of_current hc
          refine ⟨hgr, h', cmd, q, v.datas, hrem', ha, rfl, ?_, hfin.1, hfin.2⟩
          show v.asked = (v.datas ++ [d]).length
          rw [has]; simp
    · cases hr

theorem setDone_pending {L : Lib} {relaxed : Bool} {v : ClientView} {c : Client}
    {h : RawHandle} (hi : c.Inv L relaxed v) (hg : Client.Guard L relaxed v (.setDone (some h))) :
    DonePending L (v.observe (.setDone (some h))) := by
  have hr : v.doneReply = some h := hg.symm
  obtain ⟨hso, hrc⟩ := hi
  unfold ClientView.doneReply at hr
  cases hc : v.current with
  | none => rw [hc] at hr; cases hr
  | some x =>
    obtain ⟨h', cmd⟩ := x
    rw [hc] at hr
    simp only at hr
    split at hr
    · rename_i hcond
      obtain ⟨ha, hac, hdo⟩ := hcond
      rcases hso.fresh_or with ⟨h1, h2⟩ | ⟨cur, h1, h2⟩
      · rw [hc] at h2; cases h2
      · rw [hc] at h2
        have hgr : v.greeted = true := by
          cases hrs : c.receiveState with
          | dummy => rw [hrs] at hrc; exact hrc.elim
          | greeting st =>
            rw [hrs] at hrc
            have := hrc.2.2.2.2
            rw [h1] at this
            cases this
          | response st => rw [hrs] at hrc; exact hrc.1
        obtain ⟨hv, hso⟩ := hso
        rw [h1] at hso
        obtain ⟨hcok, hs, hrem⟩ := hso
        cases cur with
        | command st =>
          have := hcok.2.2.2.2.1
          rw [hac] at this; cases this
        | authenticate st =>
          have := hcok.2.1
          rw [hac] at this; cases this
        | idle st =>
          obtain ⟨k1, k2, k3, hact⟩ := hcok
          have hcmd : cmd = ⟨st.tag, .idle⟩ := by
            simp only [ClientCurrent.queued, Option.some.injEq, Prod.mk.injEq] at h2
            exact h2.2
          have hfin : v.started = true ∧ v.sent = wire (L.encodeCommand cmd) := by
            rw [hcmd]
            cases hact' : st.activity with
            | pushingIdle b => rw [hact'] at hact; exact (hs hact.1).elim
            | waitingForIdleSent =>
              rw [hact'] at hact
              rw [hac] at hact; cases hact.2.2.1
            | waitingForIdleResponse =>
              rw [hact'] at hact
              rw [hac] at hact; cases hact.2.2.1
            | waitingForIdleDoneSet => rw [hact'] at hact; exact ⟨hact.1, hact.2.1⟩
            | pushingIdleDone b =>
              rw [hact'] at hact
              rw [hdo] at hact; cases hact.2.2.2.1
            | waitingForIdleDoneSent =>
              rw [hact'] at hact
              rw [hdo] at hact; cases hact.2.2.2
          obtain ⟨q, hrem'⟩ := ClientView.remaining_of_current hc
          exact ⟨hgr, h', cmd, q, hrem', ha, hfin.1, hac, rfl, hfin.2⟩
    · cases hr

/-- A property that holds now and survives the calls that are not `next` holds after them. -/
theorem Client.skip {L : Lib} {g : HandleGenerator} {o : ClientOptions} {ops : List ClientOp} {c : Client}
    {P : ClientView → Prop} (hL : L.Lawful)
    (hP : ∀ v i, P v → Guard L o.crlfRelaxed v i → i.isNext = false → P (v.observe i))
    {T1 U V : List CItem} (h : (Client.new g o).trace L ops = .ok (c, T1 ++ U ++ V))
    (h1 : P (ClientView.of T1)) (hU : ∀ i ∈ U, i.isNext = false) : P (ClientView.of (T1 ++ U)) := by
  induction U using snocInduction generalizing V with
  | nil => simpa using h1
  | snoc U i ih =>
    rw [← List.append_assoc, ClientView.of_snoc]
    have h' : (Client.new g o).trace L ops = .ok (c, T1 ++ U ++ (i :: V)) := by
      rw [h]; simp
    refine hP _ _ (ih h' (fun j hj => hU j (by simp [hj]))) ?_ (hU i (by simp))
    exact trace_guard hL h'

end ImapFlow

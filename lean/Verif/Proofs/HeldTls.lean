import Verif.Spec.HeldTls
import Verif.Model.Proxy
import Verif.Proofs.Held
import Verif.Proofs.FullStreamData

/-!
# Lemmas about what a stream with TLS holds
-/

namespace ImapFlow

variable {K σ ε ev ι : Type}

/-! ## The connection -/

theorem openAll_sized {R : RecordLayer K} {n : Nat} (hR : R.Sized n) {k k' : K} {raw rest plain : Bytes} {closed : Bool}
    (h : Tls.openAll R k raw = some (k', rest, plain, closed)) : rest.length + plain.length ≤ raw.length := by
  fun_induction Tls.openAll R k raw generalizing k' rest plain closed with
  | case1 => cases h; simp
  | case2 => cases h
  | case3 => cases h; simp
  | case4 => cases h
  | case5 k raw k1 m hm d k2 rest2 plain2 closed2 hq hu ih =>
    cases h
    have h1 := ih hq
    have h2 := hR.opened hu
    simp only [List.length_drop, List.length_append] at h1 ⊢
    omega
  | case6 k raw k1 m hu hm ih =>
    have h1 := ih h
    simp only [List.length_drop] at h1
    omega
  | case7 => cases h

theorem openAll_rest {R : RecordLayer K} {k k' : K} {raw rest plain : Bytes}
    (h : Tls.openAll R k raw = some (k', rest, plain, false)) : R.unprotect k' rest = .incomplete := by
  fun_induction Tls.openAll R k raw generalizing k' rest plain with
  | case1 k raw hu => cases h; exact hu
  | case2 => cases h
  | case3 => cases h
  | case4 => cases h
  | case5 k raw k1 m hm d k2 rest2 plain2 closed2 hq hu ih => cases h; exact ih hq
  | case6 k raw k1 m hu hm ih => exact ih h
  | case7 => cases h

/-- What `decrypt` leaves behind. -/
theorem decrypt_ready {t t' : Tls K} {rb acc rest b : Bytes} (h : t.decrypt rb acc = .ok t' rest b) (hr : t.Ready) :
    t'.Ready ∧ rest = [] := by
  fun_induction Tls.decrypt t rb acc with
  | case1 => cases h
  | case2 => cases h
  | case3 t rb acc hw hn t1 hp hc ih =>
    refine ih h ?_
    simp only [Tls.processNewPackets, Tls.readTls] at hp
    split at hp
    · cases hp
    · rename_i k raw plain closed ho
      cases hp
      have hcl : closed = false := by
        cases closed with
        | false => rfl
        | true => simp at hc
      subst hcl
      exact ⟨rfl, by simpa using hr.open_, hr.readSize, openAll_rest ho⟩
  | case4 => cases h
  | case5 t rb acc hw =>
    cases h
    refine ⟨hr, ?_⟩
    simp only [Tls.wantsRead, hr.plain, hr.open_] at hw
    simpa using hw

theorem decrypt_sized {n : Nat} {t t' : Tls K} {rb acc rest b : Bytes} (h : t.decrypt rb acc = .ok t' rest b)
    (hR : t.layer.Sized n) : rest.length + t'.holds + b.length ≤ rb.length + t.holds + acc.length := by
  fun_induction Tls.decrypt t rb acc with
  | case1 => cases h
  | case2 => cases h
  | case3 t rb acc hw hn t1 hp hc ih =>
    simp only [Tls.processNewPackets, Tls.readTls] at hp
    split at hp
    · cases hp
    · rename_i k raw plain closed ho
      cases hp
      have h1 := ih h hR
      have h2 := openAll_sized hR ho
      simp only [Tls.holds, Tls.readTls, List.length_drop, List.length_append, List.length_take, List.length_nil] at h1 h2 ⊢
      omega
  | case4 => cases h
  | case5 => cases h; omega

theorem SameRecv.ready {t t' : Tls K} (h : SameRecv (some t) (some t')) (hr : t.Ready) : t'.Ready := by
  simp only [SameRecv] at h
  rw [h]
  exact ⟨hr.plain, hr.open_, hr.readSize, hr.raw⟩

theorem writeAll_sized {n : Nat} (t : Tls K) (b : Bytes) (hR : t.layer.Sized n) {t' : Tls K} (h : t.writeAll b = (t', .ok ())) :
    t.sendable.flatten.length + b.length ≤ t'.sendable.flatten.length := by
  fun_induction Tls.writeAll t b with
  | case1 => cases h; simp
  | case2 => cases h
  | case3 t b bs t1 m hw ih =>
    by_cases h0 : min (b :: bs).length t.space = 0
    · simp only [Tls.write, h0, if_true] at hw
      cases hw
    · rw [Tls.write_eq t h0, Prod.mk.injEq] at hw
      obtain ⟨h1, h2⟩ := hw
      rw [← h1] at ih
      have h3 := ih hR (by rw [h1]; exact h)
      have h4 := hR.sealed t.writeKey ((b :: bs).take (min (b :: bs).length t.space))
      simp only [Tls.sealed, List.flatten_append, List.length_append, List.length_drop, List.length_take, List.length_cons] at h0 h2 h3 h4 ⊢
      omega

/-- If `encrypt` succeeds and the write buffer is empty then there was nothing to write. -/
theorem encrypt_sized {n : Nat} {t t' : Tls K} {wb b : Bytes} (hR : t.layer.Sized n) (h : t.encrypt wb b = (t', [], .ok ())) : b = [] := by
  unfold Tls.encrypt at h
  split at h
  · cases h
  · rename_i t1 e
    rw [Tls.drainWrites_eq] at h
    simp only [Prod.mk.injEq, List.append_eq_nil_iff, and_true] at h
    split at e
    · rename_i hb
      exact List.isEmpty_iff.mp hb
    · have := writeAll_sized t b hR e
      rw [h.2.2] at this
      have h2 := this
      simp only [List.length_nil] at h2
      exact List.length_eq_zero_iff.mp (by omega)

/-! ## The stream -/

/-- A machine that holds at most the input given to it, and is `Idle` when it asks for more input; `ok` are the calls of its user. -/
structure Machine.Holds (M : Machine σ ε ev ι) (ok : ι → Prop) (Inv Idle : σ → Prop) (size : σ → Nat) : Prop where
  input : ∀ {s}, Inv s → ∀ b, ∃ s', M.enqueueInput s b = .ok s' ∧ Inv s' ∧ size s' = size s + b.length
  next : ∀ {s s' r}, Inv s → M.next s = .ok (s', r) →
    Inv s' ∧ size s' ≤ size s ∧ ∀ io, r = .error (.io io) → FullStream.outputBytes io = [] → Idle s'
  user : ∀ {s s' op}, Inv s → ok op → M.user s op = .ok s' → Inv s' ∧ size s' ≤ size s

namespace FullStream

/-- The connection is ready; while the stream only waits for input, nothing waits to be written, and the machine is idle. -/
structure Quiet (n : Nat) (Inv Idle : σ → Prop) (c : FullStream K σ) : Prop where
  inv : Inv c.state
  sized : ∀ t, c.tls = some t → t.layer.Sized n
  ready : c.ctl ≠ .hung → c.ctl ≠ .broken → ∀ t, c.tls = some t → t.Ready
  waits : c.ctl = .at .reading → Idle c.state ∧ c.readBuffer = [] ∧ c.writeBuffer = []

/-- All received bytes that are held. -/
def holds (size : σ → Nat) (c : FullStream K σ) : Nat := c.readBuffer.length + tlsHolds c.tls + size c.state

variable {M : Machine σ ε ev ι} {ok : ι → Prop} {Inv Idle : σ → Prop} {size : σ → Nat} {n : Nat}

theorem Takes.ready {c : FullStream K σ} {tls : Option (Tls K)} {rest b : Bytes} (h : c.Takes tls rest b)
    (hs : ∀ t, c.tls = some t → t.layer.Sized n) (hr : ∀ t, c.tls = some t → t.Ready) :
    rest = [] ∧ (∀ t, tls = some t → t.layer.Sized n ∧ t.Ready) ∧
    tlsHolds tls + b.length ≤ c.readBuffer.length + tlsHolds c.tls := by
  cases h with
  | plain h => exact ⟨rfl, nofun, by simp [tlsHolds, h]⟩
  | @tls t t' rest b h hd =>
    obtain ⟨h1, h2⟩ := decrypt_ready hd (hr t h)
    have h3 := decrypt_sized hd (hs t h)
    have h4 := (decrypt_same_send hd).1
    refine ⟨h2, ?_, ?_⟩
    · intro t1 e
      cases e
      exact ⟨h4 ▸ hs t h, h1⟩
    · simp only [tlsHolds, h, List.length_nil] at h3 ⊢
      omega

theorem provides_holds (hM : M.Holds ok Inv Idle size) {b : Bytes} {s s1 : σ} {D : List (StreamItem ε ev ι)}
    (h : Provides M b s s1 D) (hi : Inv s) : Inv s1 ∧ size s1 = size s + b.length := by
  rcases h with ⟨rfl, rfl, -⟩ | ⟨-, h, -⟩
  · exact ⟨hi, rfl⟩
  · obtain ⟨s2, h1, h2⟩ := hM.input hi b
    rw [h1] at h
    cases h
    exact h2

theorem handleOutput_ready {c c1 : FullStream K σ} {b : Bytes} {x : Bool} (h : c.handleOutput b = (c1, x))
    (hr : ∀ t, c.tls = some t → t.layer.Sized n ∧ t.Ready) :
    (∀ t, c1.tls = some t → t.layer.Sized n ∧ t.Ready) ∧ tlsHolds c1.tls = tlsHolds c.tls ∧ c1.readBuffer = c.readBuffer ∧
    c1.state = c.state ∧ (x = true → c1.writeBuffer = [] → b = []) := by
  obtain ⟨h1, h2, h3, -⟩ := handleOutput_same_recv h
  refine ⟨?_, ?_, h2, h3, ?_⟩
  · intro t ht
    rw [ht] at h1
    cases hc : c.tls with
    | none => rw [hc] at h1; exact h1.elim
    | some t0 =>
      rw [hc] at h1
      obtain ⟨h4, h5⟩ := hr t0 hc
      refine ⟨?_, h1.ready h5⟩
      simp only [SameRecv] at h1
      rw [h1]
      exact h4
  · cases hc : c.tls with
    | none =>
      cases hc1 : c1.tls with
      | none => rfl
      | some t => rw [hc, hc1] at h1; exact h1.elim
    | some t0 =>
      cases hc1 : c1.tls with
      | none => rw [hc, hc1] at h1; exact h1.elim
      | some t =>
        rw [hc, hc1] at h1
        simp only [SameRecv] at h1
        simp only [tlsHolds]
        rw [h1]
        rfl
  · rintro rfl hw
    unfold handleOutput at h
    cases hc : c.tls with
    | none =>
      rw [hc] at h
      cases h
      exact (List.append_eq_nil_iff.mp hw).2
    | some t0 =>
      rw [hc] at h
      simp only at h
      split at h
      · rename_i e
        cases h
        dsimp only at hw
        subst hw
        exact encrypt_sized (hr t0 hc).1 e
      · cases h

theorem Advanced.quiet (hM : M.Holds ok Inv Idle size) {c c' : FullStream K σ} {T : List (FullItem ε ev ι)}
    (h : Advanced M c c' T) (hi : Inv c.state) (hs : ∀ t, c.tls = some t → t.layer.Sized n) (hr : ∀ t, c.tls = some t → t.Ready) :
    Quiet n Inv Idle c' ∧ c'.holds size ≤ c.holds size := by
  cases h with
  | hung h1 h2 h3 => subst h3; exact ⟨⟨hi, hs, fun h => (h rfl).elim, nofun⟩, Nat.le_refl _⟩
  | broken h1 h2 h3 => subst h3; exact ⟨⟨hi, hs, fun _ h => (h rfl).elim, nofun⟩, Nat.le_refl _⟩
  | inputPanic _ h1 =>
    obtain ⟨s2, h2, -⟩ := hM.input hi _
    rw [h2] at h1
    cases h1
  | nextPanic h1 h2 h3 h4 =>
    obtain ⟨rfl, t2, t3⟩ := h1.ready hs hr
    obtain ⟨h5, h6⟩ := provides_holds hM h2 hi
    subst h4
    refine ⟨⟨h5, fun t ht => (t2 t ht).1, fun _ _ t ht => (t2 t ht).2, nofun⟩, ?_⟩
    simp only [holds, List.length_nil]
    omega
  | returned h1 h2 h3 h4 h5 =>
    obtain ⟨rfl, t2, t3⟩ := h1.ready hs hr
    obtain ⟨h6, h7⟩ := provides_holds hM h2 hi
    obtain ⟨h8, h9, -⟩ := hM.next h6 h3
    subst h5
    refine ⟨⟨h8, fun t ht => (t2 t ht).1, fun _ _ t ht => (t2 t ht).2, nofun⟩, ?_⟩
    simp only [holds, List.length_nil]
    omega
  | waits h1 h2 h3 h4 h5 =>
    obtain ⟨rfl, t2, t3⟩ := h1.ready hs hr
    obtain ⟨h6, h7⟩ := provides_holds hM h2 hi
    obtain ⟨h8, h9, h10⟩ := hM.next h6 h3
    obtain ⟨u1, u2, u3, u4, u5⟩ := handleOutput_ready h4 t2
    dsimp only at u3 u4
    subst h5
    refine ⟨⟨by dsimp only; rw [u4]; exact h8, fun t ht => (u1 t ht).1, fun _ _ t ht => (u1 t ht).2, ?_⟩, ?_⟩
    · intro hc
      dsimp only at hc ⊢
      split at hc
      · rename_i he
        have he := List.isEmpty_iff.mp he
        rw [u3, u4]
        exact ⟨h10 _ rfl (u5 rfl he), rfl, he⟩
      · cases hc
    · simp only [holds]
      rw [u2, u3, u4]
      simp only [List.length_nil]
      omega
  | refused h1 h2 h3 h4 h5 =>
    obtain ⟨rfl, t2, t3⟩ := h1.ready hs hr
    obtain ⟨h6, h7⟩ := provides_holds hM h2 hi
    obtain ⟨h8, h9, h10⟩ := hM.next h6 h3
    obtain ⟨u1, u2, u3, u4, u5⟩ := handleOutput_ready h4 t2
    dsimp only at u3 u4
    subst h5
    refine ⟨⟨by dsimp only; rw [u4]; exact h8, fun t ht => (u1 t ht).1, fun _ _ t ht => (u1 t ht).2, nofun⟩, ?_⟩
    simp only [holds]
    rw [u2, u3, u4]
    simp only [List.length_nil]
    omega

/-- The number of bytes read by an action. -/
def givenBy : StreamAct ι → Nat
  | .read b => b.length
  | _ => 0

theorem step_quiet (hM : M.Holds ok Inv Idle size) {c c' : FullStream K σ} {a : StreamAct ι}
    {T : List (FullItem ε ev ι)} (h : c.step M a = some (c', T))
    (hq : Quiet n Inv Idle c) (ha : ∀ op, a = .user op → ok op) :
    Quiet n Inv Idle c' ∧ c'.holds size ≤ c.holds size + givenBy a := by
  have hn : ∀ {k}, c.ctl = .at k → ∀ t, c.tls = some t → t.Ready := fun hc =>
    hq.ready (by rw [hc]; nofun) (by rw [hc]; nofun)
  have hidle : ∀ c1 : FullStream K σ, (∃ k, c.ctl = .at k) → c1.tls = c.tls → c1.state = c.state → c1.readBuffer = c.readBuffer →
      c1.ctl ≠ .at .reading → ∀ k, Quiet n Inv Idle c1 ∧ c1.holds size ≤ c.holds size + k := fun c1 ⟨_, e0⟩ e1 e2 e3 e4 k =>
    ⟨⟨e2 ▸ hq.inv, e1 ▸ hq.sized, fun _ _ => e1 ▸ hn e0, fun h => (e4 h).elim⟩,
      by simp only [holds, e1, e2, e3]; omega⟩
  cases a with
  | user op =>
    simp only [step] at h
    split at h
    · rename_i hc
      split at h <;> rename_i hu <;> cases h
      · (apply hidle _ ⟨_, hc⟩ <;> simp [hc])
      · obtain ⟨h1, h2⟩ := hM.user hq.inv (ha op rfl) hu
        refine ⟨⟨h1, hq.sized, hq.ready, fun h => ?_⟩, by simp only [holds]; omega⟩
        rw [show c.ctl = _ from h] at hc
        cases hc
    · cases h
  | callNext =>
    simp only [step] at h
    split at h
    · rename_i hc
      cases h
      exact (advance_cases _ c).quiet hM hq.inv hq.sized (hn hc)
    · cases h
  | callFlush =>
    simp only [step] at h
    split at h
    · rename_i hc
      cases ho : c.handleOutput [] with
      | mk c1 x =>
        obtain ⟨u1, u2, u3, u4, -⟩ := handleOutput_ready (n := n) ho fun t ht => ⟨hq.sized t ht, hn hc t ht⟩
        have uc : c1.ctl = .at .idle := by rw [(handleOutput_same_recv ho).2.2.2, hc]
        have all : ∀ c2 : FullStream K σ, c2.tls = c1.tls → c2.state = c1.state → c2.readBuffer = c1.readBuffer →
            c2.ctl ≠ .at .reading → Quiet n Inv Idle c2 ∧ c2.holds size ≤ c.holds size + 0 := by
          intro c2 e1 e2 e3 e4
          refine ⟨⟨by rw [e2, u4]; exact hq.inv, fun t ht => (u1 t (e1 ▸ ht)).1, fun _ _ t ht => (u1 t (e1 ▸ ht)).2,
            fun h => (e4 h).elim⟩, ?_⟩
          simp only [holds, e1, u2, e2, u4, e3, u3]
          omega
        simp only [startFlush, ho, Option.some.injEq] at h
        split at h <;> cases h
        · exact all _ rfl rfl rfl (by rw [uc]; nofun)
        · exact all _ rfl rfl rfl (by simp)
    · cases h
  | read b =>
    simp only [step] at h
    have key : (∃ k, c.ctl = .at k) → c.completeRead M b = (c', T) → Quiet n Inv Idle c' ∧ c'.holds size ≤ c.holds size + b.length := by
      rintro ⟨k, hc⟩ h
      simp only [completeRead] at h
      split at h
      · cases h
        rename_i he
        have : b = [] := List.length_eq_zero_iff.mp he
        subst this
        (apply hidle _ ⟨_, hc⟩ <;> simp [hc])
      · cases h
        obtain ⟨h1, h2⟩ := (advance_cases M { c with readBuffer := c.readBuffer ++ b }).quiet (n := n) hM hq.inv hq.sized (hn hc)
        refine ⟨h1, Nat.le_trans h2 ?_⟩
        simp only [holds, List.length_append]
        omega
    split at h
    · rename_i hc; exact key ⟨_, hc⟩ (Option.some.inj h)
    · rename_i hc; exact key ⟨_, hc⟩ (Option.some.inj h)
    · cases h
  | write k =>
    simp only [step] at h
    split at h
    · split at h
      · rename_i hc
        simp only [completeWrite, Option.some.injEq] at h
        split at h
        · cases h
          (apply hidle _ ⟨_, hc⟩ <;> simp [hc])
        · split at h
          · cases h
            exact (advance_cases M { c with writeBuffer := c.writeBuffer.drop k }).quiet hM hq.inv hq.sized (hn hc)
          · cases h
            (apply hidle _ ⟨_, hc⟩ <;> simp [hc])
      · rename_i hc
        simp only [completeFlush, Option.some.injEq] at h
        split at h
        · cases h
          (apply hidle _ ⟨_, hc⟩ <;> simp [hc])
        · split at h
          · cases h
            (apply hidle _ ⟨_, hc⟩ <;> simp [hc])
          · cases h
            (apply hidle _ ⟨_, hc⟩ <;> simp [hc])
      · cases h
    · cases h
  | fail =>
    simp only [step] at h
    split at h
    all_goals first | (rename_i hc; cases h; (apply hidle _ ⟨_, hc⟩ <;> simp [hc])) | cases h
  | drop =>
    simp only [step] at h
    split at h
    all_goals first | (rename_i hc; cases h; (apply hidle _ ⟨_, hc⟩ <;> simp [hc])) | cases h

theorem run_quiet (hM : M.Holds ok Inv Idle size) {as : List (StreamAct ι)} {c c' : FullStream K σ}
    {T : List (FullItem ε ev ι)} (h : c.run M as = some (c', T)) (hq : Quiet n Inv Idle c) (ha : ∀ op, .user op ∈ as → ok op) :
    Quiet n Inv Idle c' ∧ c'.holds size ≤ c.holds size + (as.map givenBy).sum := by
  induction as generalizing c T with
  | nil => cases h; exact ⟨hq, Nat.le_add_right _ _⟩
  | cons a as ih =>
    obtain ⟨c1, T1, T2, h1, h2, -⟩ := run_cons h
    obtain ⟨h3, h4⟩ := step_quiet hM h1 hq fun op he => ha op (by rw [← he]; exact List.mem_cons_self)
    obtain ⟨h5, h6⟩ := ih h2 h3 fun op hm => ha op (List.mem_cons_of_mem _ hm)
    refine ⟨h5, ?_⟩
    simp only [List.map_cons, List.sum_cons]
    omega

/-- A new stream whose connection is ready. -/
theorem new_quiet {tls : Option (Tls K)} {s : σ} (hi : Inv s) (ht : ∀ t, tls = some t → t.layer.Sized n ∧ t.Ready) :
    Quiet n Inv Idle (.new tls s) := by
  have h1 : (FullStream.new tls s).tls = tls := by cases tls <;> rfl
  have h2 : (FullStream.new tls s).state = s := by cases tls <;> rfl
  have h3 : (FullStream.new tls s).ctl = .at .idle := by cases tls <;> rfl
  refine ⟨by rw [h2]; exact hi, fun t h => (ht t (h1 ▸ h)).1, fun _ _ t h => (ht t (h1 ▸ h)).2, fun h => ?_⟩
  rw [h3] at h
  cases h

theorem new_held (tls : Option (Tls K)) (s : Server) : (FullStream.new tls s).holds (fun s => s.buffer.length) =
    tlsHolds tls + s.buffer.length := by
  cases tls <;> simp [holds, FullStream.new, insecure, secure]

end FullStream

/-! ## The server -/

theorem serverMachine_holds {L : Lib} (hL : L.Speaks) (n : Nat) :
    (serverMachine L).Holds (fun op => ∀ b, op ≠ .enqueueInput b) (Server.Capped n)
      (fun s => s.idleWaits = false → s.buffer.length < n) (fun s => s.buffer.length) where
  input := fun hi b => Server.enqueueInput_held b hi
  next := fun hi h => by
    obtain ⟨h1, h2⟩ := Server.next_asks (n := n) h
    obtain ⟨h3, h4⟩ := h1 hi
    exact ⟨h3, h4, fun io hr he => h2 hL io hr he hi⟩
  user := fun hi ho h => Server.user_held h ho hi

namespace FullStream

theorem holds_eq (c : FullStream K Server) : c.holds (fun s => s.buffer.length) = c.held + tlsHolds c.tls := by
  simp only [holds, held]
  omega

theorem given_eq : (givenBy : StreamAct ServerOp → Nat) = StreamAct.given := by
  funext a
  cases a <;> rfl

/-- What is held while the stream only waits for input. -/
theorem Quiet.reading {n r : Nat} {c : FullStream K Server}
    (h : Quiet r (Server.Capped n) (fun s => s.idleWaits = false → s.buffer.length < n) c) (hc : c.ctl = .at .reading)
    (hi : c.state.idleWaits = false) : c.held + tlsHolds c.tls < n + r := by
  obtain ⟨h1, h2, -⟩ := h.waits hc
  have h3 : tlsHolds c.tls ≤ r := by
    cases ht : c.tls with
    | none => exact Nat.zero_le _
    | some t =>
      have h4 := h.ready (by rw [hc]; nofun) (by rw [hc]; nofun) t ht
      have h5 := (h.sized t ht).limit h4.raw
      simp only [tlsHolds, Tls.holds, h4.plain, List.length_nil]
      omega
  have h4 := h1 hi
  simp only [held, h2, List.length_nil]
  omega

theorem run_held_tls {L : Lib} (hL : L.Speaks) {n r N : Nat} {as : List (StreamAct ServerOp)} {c c' : FullStream K Server}
    {T : List (FullItem ServerError ServerEvent ServerOp)} (h : c.run (serverMachine L) as = some (c', T))
    (hq : Quiet r (Server.Capped n) (fun s => s.idleWaits = false → s.buffer.length < n) c)
    (hh : c.held + tlsHolds c.tls ≤ n + r + N) (ha : c.modest L N as = true) : c'.held + tlsHolds c'.tls ≤ n + r + N := by
  induction as generalizing c T with
  | nil => cases h; exact hh
  | cons a as ih =>
    obtain ⟨c1, T1, T2, h1, h2, -⟩ := run_cons h
    simp only [modest, h1, Bool.and_eq_true] at ha
    obtain ⟨h3, h4⟩ := ha
    obtain ⟨h5, h6⟩ := step_quiet (serverMachine_holds hL n) h1 hq (by rintro op rfl b rfl; cases h3)
    rw [holds_eq, holds_eq] at h6
    refine ih h2 h5 ?_ h4
    cases a with
    | read b =>
      simp only [Bool.and_eq_true, beq_iff_eq, Bool.not_eq_true', decide_eq_true_eq, and_assoc] at h3
      dsimp only [givenBy] at h6
      have h7 := hq.reading h3.1 h3.2.1
      omega
    | _ => exact Nat.le_trans h6 hh

end FullStream

end ImapFlow

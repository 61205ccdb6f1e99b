import Verif.Proofs.StreamDialogue
import Verif.Proofs.RestDelivered

/-!
# Streams whose users only wait come to rest
-/

namespace ImapFlow

variable {K : Type} {paired : K → K → Prop}

/-! ## One stream -/

/-- With nothing to send, nothing changes. -/
theorem Sender.handleOutput_nil {σ : Type} {c c1 : FullStream K σ} {ok : Bool} (hs : Sender paired c.tls)
    (h : c.handleOutput [] = (c1, ok)) : c1.writeBuffer = c.writeBuffer := by
  unfold FullStream.handleOutput at h
  split at h
  · cases h; simp
  · rename_i t ht
    have hd : t.drainWrites = (t, []) := by
      rw [Tls.drainWrites]
      have : t.wantsWrite = false := by unfold Tls.wantsWrite; rw [(hs t ht).2.1]; rfl
      simp [this]
    have he : t.encrypt c.writeBuffer [] = (t, c.writeBuffer, .ok ()) := by
      unfold Tls.encrypt
      simp [hd]
    rw [he] at h
    cases h
    rfl

namespace FullStream

variable {σ ε ev ι : Type}

/-- An iteration of `next` gets something else than a request for input, or it only waits. -/
theorem Advanced.moves {M : Machine σ ε ev ι} {c c' : FullStream K σ} {T : List (FullItem ε ev ι)}
    (h : Advanced M c c' T) (hs : Sender paired c.tls) (hr : .refused ∉ T)
    (ha : c'.ctl ≠ .at .dead ∧ c'.ctl ≠ .hung ∧ c'.ctl ≠ .broken) :
    streamWrote (streamPart T) = [] ∧
    ((∃ r, StreamItem.poll r ∈ streamPart T ∧ r ≠ .error (.io .needMoreInput)) ∨
      (c'.writeBuffer = c.writeBuffer ∧ c'.ctl ≠ .at .idle)) := by
  have hw := (h.send hs hr).2.1
  refine ⟨hw, ?_⟩
  cases h with
  | hung h1 h2 h3 => subst h3; exact absurd rfl ha.2.1
  | broken h1 h2 h3 => subst h3; exact absurd rfl ha.2.2
  | inputPanic h1 h2 h3 => subst h3; exact absurd rfl ha.1
  | nextPanic h1 h2 h3 h4 => subst h4; exact absurd rfl ha.1
  | @returned _ _ _ _ _ _ r h1 h2 h3 h4 h5 => left; rw [streamPart_map]; exact ⟨r, by simp, h4 _⟩
  | refused h1 h2 h3 h4 h5 => simp at hr
  | @waits _ _ _ D _ _ io c1 h1 h2 h3 h4 h5 =>
    cases io with
    | output b => left; rw [streamPart_map]; exact ⟨.error (.io (.output b)), by simp, by simp⟩
    | needMoreInput =>
      right
      have := ((h1.same_send.sends hs).sender hs).handleOutput_nil (c := { c with tls := _, readBuffer := _, state := _ }) h4
      subst h5
      refine ⟨this, ?_⟩
      dsimp only
      split <;> simp

/-- An internal step gets something else than a request for input, or it uses up bytes, or `next` was called and waits. -/
theorem step_moves {M : Machine σ ε ev ι} {c c' : FullStream K σ} {act : SideAct ι} {wire : Bytes}
    {T : List (FullItem ε ev ι)} (h : c.step M (act.toStream wire) = some (c', T)) (hi : act.Internal wire)
    (hs : Sender paired c.tls) (hr : .refused ∉ T) (ha : c'.ctl ≠ .at .dead ∧ c'.ctl ≠ .hung ∧ c'.ctl ≠ .broken) :
    (∃ r, StreamItem.poll r ∈ streamPart T ∧ r ≠ .error (.io .needMoreInput)) ∨
    (c'.writeBuffer.length + (streamWrote (streamPart T)).length = c.writeBuffer.length ∧
      (((streamWrote (streamPart T)).length + (act.rest wire).length < (c.writeBuffer.length - c'.writeBuffer.length) * 2 + wire.length) ∨
        (streamWrote (streamPart T) = [] ∧ act.rest wire = wire ∧ c.ctl = .at .idle ∧ c'.ctl ≠ .at .idle))) := by
  cases act with
  | user op => exact hi.elim
  | callFlush => exact hi.elim
  | fail => exact hi.elim
  | drop => exact hi.elim
  | callNext =>
    simp only [SideAct.toStream, FullStream.step] at h
    split at h
    · rename_i hc
      cases h
      simp only [List.mem_cons, reduceCtorEq, false_or] at hr
      obtain ⟨h1, h2⟩ := (advance_cases M c).moves hs hr ha
      rw [streamPart_cons]
      rcases h2 with ⟨r, h2, h3⟩ | ⟨h2, h3⟩
      · exact .inl ⟨r, List.mem_cons_of_mem _ h2, h3⟩
      · right
        have e : streamWrote (StreamItem.callNext :: streamPart (c.advance M).2) = [] := h1
        rw [e, h2]
        exact ⟨by simp, .inr ⟨rfl, rfl, hc, h3⟩⟩
    · cases h
  | read k =>
    obtain ⟨hk, hw⟩ := hi
    have hb : wire.take k ≠ [] := by
      cases wire with
      | nil => exact absurd rfl hw
      | cons x w => cases k with
        | zero => omega
        | succ k => simp
    have hx : c' = (c.completeRead M (wire.take k)).1 ∧ T = (c.completeRead M (wire.take k)).2 := by
      simp only [SideAct.toStream, FullStream.step] at h
      split at h <;> first | (cases h; done) | (injection h with h; rw [h]; exact ⟨rfl, rfl⟩)
    obtain ⟨rfl, rfl⟩ := hx
    have hb' : ¬ (wire.take k).length = 0 := by simpa using hb
    revert hr ha
    unfold completeRead
    simp only [hb', if_false]
    intro ha hr
    replace hr := fun hm => hr (List.mem_cons_of_mem _ hm)
    obtain ⟨h1, h2⟩ := (advance_cases M { c with readBuffer := c.readBuffer ++ wire.take k }).moves hs hr ha
    rw [streamPart_cons]
    rcases h2 with ⟨r, h2, h3⟩ | ⟨h2, h3⟩
    · exact .inl ⟨r, List.mem_cons_of_mem _ h2, h3⟩
    · right
      have e : streamWrote (StreamItem.read (wire.take k) ::
          streamPart (advance M { c with readBuffer := c.readBuffer ++ wire.take k }).2) = [] := h1
      rw [e, h2]
      refine ⟨by simp, .inl ?_⟩
      have : 0 < wire.length := List.length_pos_iff.2 hw
      simp [SideAct.rest]
      omega
  | write k =>
    have hk : 0 < k := hi
    simp only [SideAct.toStream, FullStream.step] at h
    split at h
    · rename_i hle
      have key : ∀ c'' : FullStream K σ, c''.writeBuffer = c.writeBuffer.drop k →
          ∀ S : List (StreamItem ε ev ι), streamWrote S = c.writeBuffer.take k →
          c''.writeBuffer.length + (streamWrote S).length = c.writeBuffer.length ∧
          (streamWrote S).length + wire.length < (c.writeBuffer.length - c''.writeBuffer.length) * 2 + wire.length := by
        intro c'' e1 S e2
        rw [e1, e2, List.length_drop, List.length_take]
        omega
      split at h
      · injection h with h
        unfold completeWrite at h
        have hk0 : k ≠ 0 := by omega
        simp only [hk0, if_false] at h
        split at h
        · rename_i hemp
          cases h
          simp only [List.mem_cons, reduceCtorEq, false_or] at hr
          obtain ⟨h1, h2⟩ := (advance_cases M { c with writeBuffer := c.writeBuffer.drop k }).moves hs hr ha
          rw [streamPart_cons]
          rcases h2 with ⟨r, h2, h3⟩ | ⟨h2, h3⟩
          · exact .inl ⟨r, List.mem_cons_of_mem _ h2, h3⟩
          · right
            obtain ⟨k1, k2⟩ := key _ h2 (StreamItem.wrote (c.writeBuffer.take k) ::
              streamPart (advance M { c with writeBuffer := c.writeBuffer.drop k }).2) (by
                have e : streamWrote (StreamItem.wrote (c.writeBuffer.take k) ::
                  streamPart (advance M { c with writeBuffer := c.writeBuffer.drop k }).2) = c.writeBuffer.take k ++
                  streamWrote (streamPart (advance M { c with writeBuffer := c.writeBuffer.drop k }).2) := rfl
                rw [e, h1, List.append_nil])
            exact ⟨k1, .inl k2⟩
        · cases h
          obtain ⟨k1, k2⟩ := key { c with writeBuffer := c.writeBuffer.drop k } rfl
            (streamPart ([.stream (.wrote (c.writeBuffer.take k))] : List (FullItem ε ev ι)))
            (by simp [streamPart, FullItem.stream?, streamWrote])
          exact .inr ⟨k1, .inl k2⟩
      · injection h with h
        unfold completeFlush at h
        have hk0 : k ≠ 0 := by omega
        simp only [hk0, if_false] at h
        split at h
        · cases h
          obtain ⟨k1, k2⟩ := key { c with writeBuffer := c.writeBuffer.drop k, ctl := .at .idle } rfl
            (streamPart ([.stream (.wrote (c.writeBuffer.take k)), .stream (.flushed (.ok ()))] : List (FullItem ε ev ι)))
            (by simp [streamPart, FullItem.stream?, streamWrote])
          exact .inr ⟨k1, .inl k2⟩
        · cases h
          obtain ⟨k1, k2⟩ := key { c with writeBuffer := c.writeBuffer.drop k } rfl
            (streamPart ([.stream (.wrote (c.writeBuffer.take k))] : List (FullItem ε ev ι)))
            (by simp [streamPart, FullItem.stream?, streamWrote])
          exact .inr ⟨k1, .inl k2⟩
      · cases h
    · cases h

/-- A pending write has something to write. -/
def Pending (c : FullStream K σ) : Prop := c.ctl = .at .racing ∨ c.ctl = .at .flushing → c.writeBuffer ≠ []

theorem Advanced.pending {M : Machine σ ε ev ι} {c c' : FullStream K σ} {T : List (FullItem ε ev ι)}
    (h : Advanced M c c' T) : c'.Pending := by
  cases h with
  | hung h1 h2 h3 => subst h3; simp [Pending]
  | broken h1 h2 h3 => subst h3; simp [Pending]
  | inputPanic h1 h2 h3 => subst h3; simp [Pending]
  | nextPanic h1 h2 h3 h4 => subst h4; simp [Pending]
  | returned h1 h2 h3 h4 h5 => subst h5; simp [Pending]
  | refused h1 h2 h3 h4 h5 => subst h5; simp [Pending]
  | waits h1 h2 h3 h4 h5 =>
    subst h5
    unfold Pending
    dsimp only
    split
    · simp
    · rename_i hw
      intro _
      simpa using hw

theorem Stepped.pending {M : Machine σ ε ev ι} {c c' : FullStream K σ} {T : List (FullItem ε ev ι)}
    (h : Stepped M c c' T) : c'.Pending := by
  cases h with
  | user h1 h2 h3 => subst h3; simp [Pending, h1]
  | userPanic h1 h2 h3 => subst h3; simp [Pending]
  | callNext h1 h2 => exact h2.pending
  | read h1 h2 h3 => exact h3.pending
  | written h1 h2 h3 h4 => exact h4.pending
  | wrote h1 h2 h3 h4 =>
    rcases h4 with ⟨h4, -, rfl⟩ | ⟨-, -, -, rfl⟩
    · exact fun _ => h4
    · simp [Pending]
  | flush h1 h2 h3 =>
    rcases h3 with ⟨h3, -, rfl⟩ | ⟨h3, -, rfl⟩
    · have hctl : c'.ctl = c.ctl := by
        unfold handleOutput at h2
        split at h2
        · cases h2; rfl
        · split at h2 <;> cases h2 <;> rfl
      simp [Pending, hctl, h1]
    · exact fun _ => h3
  | ended h1 h2 => subst h1; simp [Pending]
  | dropped h1 h2 => subst h2; simp [Pending]

/-- Unless the stream waits for input and none is on the way, it can make an internal step. -/
theorem step_possible (M : Machine σ ε ev ι) {c : FullStream K σ} {wire : Bytes} (hp : c.Pending)
    (ha : c.ctl ≠ .at .dead ∧ c.ctl ≠ .hung ∧ c.ctl ≠ .broken) (hw : ¬ (c.ctl = .at .reading ∧ wire = [])) :
    ∃ act : SideAct ι, act.Internal wire ∧ (∀ op, act ≠ .user op) ∧ ∃ x, c.step M (act.toStream wire) = some x := by
  obtain ⟨tls, rb, wb, st, ctl⟩ := c
  cases ctl with
  | hung => exact absurd rfl ha.2.1
  | broken => exact absurd rfl ha.2.2
  | «at» ctl =>
    cases ctl with
    | dead => exact absurd rfl ha.1
    | idle => exact ⟨.callNext, trivial, nofun, _, rfl⟩
    | reading =>
      have : wire ≠ [] := fun h => hw ⟨rfl, h⟩
      exact ⟨.read 1, ⟨by omega, this⟩, nofun, _, rfl⟩
    | racing =>
      have : wb ≠ [] := hp (.inl rfl)
      have hl : 1 ≤ wb.length := List.length_pos_iff.2 this
      exact ⟨.write 1, by simp [SideAct.Internal], nofun, _, by simp only [SideAct.toStream, step, hl, if_true]; rfl⟩
    | flushing =>
      have : wb ≠ [] := hp (.inr rfl)
      have hl : 1 ≤ wb.length := List.length_pos_iff.2 this
      exact ⟨.write 1, by simp [SideAct.Internal], nofun, _, by simp only [SideAct.toStream, step, hl, if_true]; rfl⟩

end FullStream

/-! ## The plain system -/

section

variable {L : Lib} {gc gs : HandleGenerator} {oc : ClientOptions} {os : ServerOptions} {gr : Greeting} {n n' : Net}
  {T U : List NItem}

/-- The results of an idle step. -/
theorem Net.idle_results {op : NetOp} (hop : op.Internal) (hs : n.step L op = .ok (n', U)) (hi : Net.Idle L n n' op) :
    (∀ r ∈ (clientItems U).filterMap CItem.result?, r = .error (.io .needMoreInput)) ∧
    ∀ r ∈ (serverItems U).filterMap SItem.result?, r = .error (.io .needMoreInput) := by
  have hc : ∀ {n n' : Net} {op : ClientOp} {U}, n.callClient L op = .ok (n', U) →
      (∀ c o, n.client.call L op = .ok (c, o) → ∀ r, o = .next r → r = .error (.io .needMoreInput)) →
      (∀ r ∈ (clientItems U).filterMap CItem.result?, r = .error (.io .needMoreInput)) ∧
      ∀ r ∈ (serverItems U).filterMap SItem.result?, r = .error (.io .needMoreInput) := by
    intro n n' op U h hr
    unfold Net.callClient at h
    split at h
    · cases h
    · rename_i c V hV
      cases h
      rw [clientItems_map_client, serverItems_map_client]
      refine ⟨fun r hm => ?_, by simp⟩
      rw [CItem.results_erase] at hm
      have he := Client.callTrace_erase L n.client op
      rw [hV] at he
      cases hcall : n.client.call L op with
      | error p => rw [hcall] at he; cases he
      | ok x =>
        obtain ⟨c1, o⟩ := x
        rw [hcall] at he
        simp only [Client.eraseRes, Except.map, Except.ok.injEq, Prod.mk.injEq] at he
        rw [he.2] at hm
        refine hr c1 o hcall r ?_
        cases o <;> simp at hm
        rw [hm]
  have hsv : ∀ {n n' : Net} {op : ServerOp} {U}, n.callServer L op = .ok (n', U) →
      (∀ c o, n.server.call L op = .ok (c, o) → ∀ r, o = .next r → r = .error (.io .needMoreInput)) →
      (∀ r ∈ (clientItems U).filterMap CItem.result?, r = .error (.io .needMoreInput)) ∧
      ∀ r ∈ (serverItems U).filterMap SItem.result?, r = .error (.io .needMoreInput) := by
    intro n n' op U h hr
    unfold Net.callServer at h
    split at h
    · cases h
    · rename_i c V hV
      cases h
      rw [clientItems_map_server, serverItems_map_server]
      refine ⟨by simp, fun r hm => ?_⟩
      rw [SItem.results_erase] at hm
      have he := Server.callTrace_erase L n.server op
      rw [hV] at he
      cases hcall : n.server.call L op with
      | error p => rw [hcall] at he; cases he
      | ok x =>
        obtain ⟨c1, o⟩ := x
        rw [hcall] at he
        simp only [Server.eraseRes, Except.map, Except.ok.injEq, Prod.mk.injEq] at he
        rw [he.2] at hm
        refine hr c1 o hcall r ?_
        cases o <;> simp at hm
        rw [hm]
  cases op with
  | client op =>
    cases op <;> first | exact hop.elim | skip
    refine hc hs ?_
    obtain ⟨⟨c1, h1⟩, -⟩ := hi
    intro c o hcall r ho
    simp only [Client.call, h1, Except.map, Except.ok.injEq, Prod.mk.injEq] at hcall
    subst ho
    simpa using hcall.2.symm
  | server op =>
    cases op <;> first | exact hop.elim | skip
    refine hsv hs ?_
    obtain ⟨⟨c1, h1⟩, -⟩ := hi
    intro c o hcall r ho
    simp only [Server.call, h1, Except.map, Except.ok.injEq, Prod.mk.injEq] at hcall
    subst ho
    simpa using hcall.2.symm
  | deliverToClient k =>
    refine hc hs ?_
    intro c o hcall r ho
    subst ho
    simp only [Client.call] at hcall
    exfalso
    revert hcall
    cases Client.enqueueInput _ _ <;> simp [Except.map]
  | deliverToServer k =>
    refine hsv hs ?_
    intro c o hcall r ho
    subst ho
    simp only [Server.call] at hcall
    exfalso
    revert hcall
    cases Server.enqueueInput _ _ <;> simp [Except.map]

/-- Steps without users spend weight, or they only ask for input. -/
theorem Net.Linked.run_idle (hL : L.Lawful) (hmax : 0 < os.maxCommandSize) (h : Net.Linked L gc oc gs os gr n T)
    {ops : List NetOp} (hop : ∀ op ∈ ops, op.Internal) (hr : n.run L ops = .ok (n', U)) :
    Net.Lighter (n'.weight L) (n.weight L) ∨ (n'.weight L = n.weight L ∧
      (∀ r ∈ (clientItems U).filterMap CItem.result?, r = .error (.io .needMoreInput)) ∧
      ∀ r ∈ (serverItems U).filterMap SItem.result?, r = .error (.io .needMoreInput)) := by
  induction ops generalizing n T U with
  | nil => cases hr; exact .inr ⟨rfl, by simp [clientItems], by simp [serverItems]⟩
  | cons op ops ih =>
    simp only [Net.run] at hr
    cases h1 : n.step L op with
    | error p => rw [h1] at hr; cases hr
    | ok x =>
      obtain ⟨n1, U1⟩ := x
      rw [h1] at hr
      simp only at hr
      cases h2 : n1.run L ops with
      | error p => rw [h2] at hr; cases hr
      | ok y =>
        obtain ⟨n2, U2⟩ := y
        rw [h2] at hr
        cases hr
        have w1 := h.step_weight hL hmax (hop _ (by simp)) h1
        have w2 := ih (h.step h1) (fun op ho => hop op (by simp [ho])) h2
        rcases w1 with w1 | ⟨w1, -, -, w3⟩
        · rcases w2 with w2 | ⟨w2, -⟩
          · exact .inl (w2.trans w1)
          · exact .inl (w2 ▸ w1)
        · obtain ⟨i1, i2⟩ := Net.idle_results (hop _ (by simp)) h1 w3
          rcases w2 with w2 | ⟨w2, j1, j2⟩
          · exact .inl (w1 ▸ w2)
          · refine .inr ⟨w2.trans w1, ?_, ?_⟩
            · rw [clientItems_append, List.filterMap_append]
              exact fun r hm => (List.mem_append.1 hm).elim (i1 r) (j1 r)
            · rw [serverItems_append, List.filterMap_append]
              exact fun r hm => (List.mem_append.1 hm).elim (i2 r) (j2 r)

end

/-! ## Both streams -/

namespace StreamNet

variable {L : Lib} {gc gs : HandleGenerator} {oc : ClientOptions} {os : ServerOptions} {gr : Greeting} {n : Net}
  {T : List NItem}

/-- Bytes that still have to be moved. -/
def bytes (sn : StreamNet K) : Nat :=
  2 * (sn.client.writeBuffer.length + sn.server.writeBuffer.length) + sn.toServer.length + sn.toClient.length

/-- Users that still have to call `next`. -/
def idles (sn : StreamNet K) : Nat :=
  (if sn.client.ctl = .at .idle then 1 else 0) + if sn.server.ctl = .at .idle then 1 else 0

/-- The calls of an internal step are internal. -/
theorem calls_internal {sn sn' : StreamNet K} {G : List StreamNetItem} (h : sn.Moves L sn' G) :
    ∀ op ∈ G.flatMap StreamNetItem.calls, op.Internal := by
  obtain ⟨a, hi, hs⟩ := h
  intro op hop
  rcases step_sides hs with ⟨act, rfl, h3, -⟩ | ⟨act, rfl, h3, -⟩
  · simp only [StreamNet.clientStep] at h3
    split at h3
    · cases h3
    · rename_i c' V hst
      cases h3
      rw [(atClient_map_client V).2.2] at hop
      obtain ⟨i, h4, h5⟩ := List.mem_flatMap.1 hop
      cases i with
      | user op' =>
        have := user_item hst h4
        subst this
        exact hi.elim
      | poll r => simp [StreamNetItem.calls] at h5; subst h5; trivial
      | deliver b => simp [StreamNetItem.calls] at h5; subst h5; trivial
      | _ => simp [StreamNetItem.calls] at h5
  · simp only [StreamNet.serverStep] at h3
    split at h3
    · cases h3
    · rename_i c' V hst
      cases h3
      rw [(atServer_map_server V).2.2] at hop
      obtain ⟨i, h4, h5⟩ := List.mem_flatMap.1 hop
      cases i with
      | user op' =>
        have := user_item hst h4
        subst this
        exact hi.elim
      | poll r => simp [StreamNetItem.calls] at h5; subst h5; trivial
      | deliver b => simp [StreamNetItem.calls] at h5; subst h5; trivial
      | _ => simp [StreamNetItem.calls] at h5

/-- A step without users spends weight, or bytes, or a user begins to wait. -/
theorem Tracks.moves (hL : L.Lawful) (hO : ServerOptions.Built L os) (hmax : 0 < os.maxCommandSize)
    {sn sn' : StreamNet K} {ops : List NetOp} {G : List StreamNetItem}
    (hn : (Net.new gc oc gs os gr).run L ops = .ok (n, T)) (h : Tracks paired sn n) (hm : sn.Moves L sn' G)
    (hr : .client .refused ∉ G ∧ .server .refused ∉ G) :
    ∃ n' T', (Net.new gc oc gs os gr).run L (ops ++ G.flatMap StreamNetItem.calls) = .ok (n', T ++ T') ∧
      Tracks paired sn' n' ∧ (Net.Lighter (n'.weight L) (n.weight L) ∨
        (n'.weight L = n.weight L ∧ (sn'.bytes < sn.bytes ∨ (sn'.bytes = sn.bytes ∧ sn'.idles < sn.idles)))) := by
  have hint := calls_internal hm
  obtain ⟨a, hi, hs⟩ := hm
  obtain ⟨n', U, k1, k2, k3, k4, -⟩ := Tracks.run hL hO hn h (as := [a]) (sn' := sn') (G := G)
    (by simp [StreamNet.run, hs]) hr
  have hn' : (Net.new gc oc gs os gr).run L (ops ++ G.flatMap StreamNetItem.calls) = .ok (n', T ++ U) := by
    rw [Net.run_append, hn]
    simp [k1, Except.map]
  refine ⟨n', U, hn', k2, ?_⟩
  rcases (Net.run_linked hn).run_idle hL hmax hint k1 with hl | ⟨hw, h1, h2⟩
  · exact .inl hl
  · refine .inr ⟨hw, ?_⟩
    rw [k3.results] at h1
    rw [k4.results] at h2
    rcases step_sides hs with ⟨act, rfl, h3, -⟩ | ⟨act, rfl, h3, -⟩
    · simp only [StreamNet.clientStep] at h3
      split at h3
      · cases h3
      · rename_i c' V hst
        cases h3
        rw [(atClient_map_client V).1] at h1
        rcases FullStream.step_moves hst hi h.toServer.sender (by simpa using hr.1) k2.clientSound.alive with
          ⟨r, p1, p2⟩ | ⟨p1, p2⟩
        · exact absurd (h1 r (List.mem_filterMap.2 ⟨_, p1, rfl⟩)) p2
        · simp only [bytes, idles, List.length_append]
          rcases p2 with p2 | ⟨p2, p3, p4, p5⟩
          · left; omega
          · right
            rw [p2, p3]
            simp only [p4, p5, if_true, if_false, List.length_nil]
            rw [p2, List.length_nil] at p1
            omega
    · simp only [StreamNet.serverStep] at h3
      split at h3
      · cases h3
      · rename_i c' V hst
        cases h3
        rw [(atServer_map_server V).1] at h2
        rcases FullStream.step_moves hst hi h.toClient.sender (by simpa using hr.2) k2.serverSound.alive with
          ⟨r, p1, p2⟩ | ⟨p1, p2⟩
        · exact absurd (h2 r (List.mem_filterMap.2 ⟨_, p1, rfl⟩)) p2
        · simp only [bytes, idles, List.length_append]
          rcases p2 with p2 | ⟨p2, p3, p4, p5⟩
          · left; omega
          · right
            rw [p2, p3]
            simp only [p4, p5, if_true, if_false, List.length_nil]
            rw [p2, List.length_nil] at p1
            omega

/-- There is no infinite run without users. -/
theorem Tracks.rest (hL : L.Lawful) (hO : ServerOptions.Built L os) (hmax : 0 < os.maxCommandSize)
    {ops : List NetOp} (hn : (Net.new gc oc gs os gr).run L ops = .ok (n, T)) {f : Nat → StreamNet K}
    {g : Nat → List StreamNetItem} (h : Tracks paired (f 0) n) (hm : ∀ i, (f i).Moves L (f (i + 1)) (g i))
    (hr : ∀ i, .client .refused ∉ g i ∧ .server .refused ∉ g i) : False := by
  obtain ⟨w, hw⟩ : ∃ w, w = n.weight L := ⟨_, rfl⟩
  induction w using Net.lighter_wf.induction generalizing n T ops f g with
  | _ w ih =>
    obtain ⟨b, hb⟩ : ∃ b, b = (f 0).bytes := ⟨_, rfl⟩
    induction b using Nat.strongRecOn generalizing n T ops f g with
    | _ b ihb =>
      obtain ⟨d, hd⟩ : ∃ d, d = (f 0).idles := ⟨_, rfl⟩
      induction d using Nat.strongRecOn generalizing n T ops f g with
      | _ d ihd =>
        obtain ⟨n', T', h1, h2, h3⟩ := h.moves hL hO hmax hn (hm 0) (hr 0)
        have hm' : ∀ i, (f (i + 1)).Moves L (f (i + 1 + 1)) (g (i + 1)) := fun i => hm (i + 1)
        have hr' : ∀ i, .client .refused ∉ g (i + 1) ∧ .server .refused ∉ g (i + 1) := fun i => hr (i + 1)
        rcases h3 with h3 | ⟨h3, h4 | ⟨h4, h5⟩⟩
        · exact ih _ (hw ▸ h3) h1 (f := fun i => f (i + 1)) (g := fun i => g (i + 1)) h2 hm' hr' rfl
        · exact ihb _ (hb ▸ h4) h1 (f := fun i => f (i + 1)) (g := fun i => g (i + 1)) h2 hm' hr' (hw.trans h3.symm) rfl
        · exact ihd _ (hd ▸ h5) h1 (f := fun i => f (i + 1)) (g := fun i => g (i + 1)) h2 hm' hr' (hw.trans h3.symm)
            (hb.trans h4.symm) rfl

/-- Pending writes have something to write. -/
theorem run_pending {sn sn' : StreamNet K} {as : List StreamNetAct} {G : List StreamNetItem}
    (h : sn.run L as = some (sn', G)) (hp : sn.client.Pending ∧ sn.server.Pending) :
    sn'.client.Pending ∧ sn'.server.Pending := by
  induction as generalizing sn G with
  | nil => cases h; exact hp
  | cons a as ih =>
    obtain ⟨sn1, G1, G2, h1, h2, rfl⟩ := run_cons h
    refine ih h2 ?_
    rcases step_sides h1 with ⟨act, -, h3, -⟩ | ⟨act, -, h3, -⟩
    · simp only [StreamNet.clientStep] at h3
      split at h3
      · cases h3
      · rename_i c' T hst
        cases h3
        exact ⟨(FullStream.step_cases hst).pending, hp.2⟩
    · simp only [StreamNet.serverStep] at h3
      split at h3
      · cases h3
      · rename_i c' T hst
        cases h3
        exact ⟨hp.1, (FullStream.step_cases hst).pending⟩

/-- A system that does not wait moves. -/
theorem Tracks.possible {sn : StreamNet K} (h : Tracks paired sn n) (hp : sn.client.Pending ∧ sn.server.Pending)
    (hw : ¬ sn.Waiting) : ∃ sn' G, sn.Moves L sn' G := by
  by_cases hc : sn.client.ctl = .at .reading ∧ sn.toClient = []
  · by_cases hs : sn.server.ctl = .at .reading ∧ sn.toServer = []
    · exact absurd ⟨hs.2, hc.2, hc.1, hs.1⟩ hw
    · obtain ⟨act, h1, h2, ⟨c, V⟩, h3⟩ := FullStream.step_possible (serverMachine L) hp.2 h.serverSound.alive hs
      refine ⟨{ sn with server := c, toServer := act.rest sn.toServer, toClient := sn.toClient ++ streamWrote (streamPart V) },
        V.map .server, .server act, h1, ?_⟩
      cases act with
      | user op => exact absurd rfl (h2 op)
      | _ => simp only [step, StreamNet.serverStep, h3]
  · obtain ⟨act, h1, h2, ⟨c, V⟩, h3⟩ := FullStream.step_possible (clientMachine L) hp.1 h.clientSound.alive hc
    refine ⟨{ sn with client := c, toClient := act.rest sn.toClient, toServer := sn.toServer ++ streamWrote (streamPart V) },
      V.map .client, .client act, h1, ?_⟩
    cases act with
    | user op => exact absurd rfl (h2 op)
    | _ => simp only [step, StreamNet.clientStep, h3]

/-- A run, and then steps without users. -/
theorem Unattended.run {sn sn' sn0 : StreamNet K} {as : List StreamNetAct} {G G' : List StreamNetItem}
    (hu : sn.Unattended L sn' G') (h : sn0.run L as = some (sn, G)) :
    ∃ as', sn0.run L as' = some (sn', G ++ G') ∧ ∀ op ∈ G'.flatMap StreamNetItem.calls, op.Internal := by
  induction hu with
  | nil => exact ⟨as, by simpa using h, by simp⟩
  | @snoc n1 n2 G1 G2 hu hm ih =>
    obtain ⟨as', h1, h2⟩ := ih
    have hint := calls_internal hm
    obtain ⟨a, -, hs⟩ := hm
    refine ⟨as' ++ [a], ?_, ?_⟩
    · have happ : ∀ (as : List StreamNetAct) (sn0 n1 : StreamNet K) (G : List StreamNetItem), sn0.run L as = some (n1, G) →
          n1.step L a = some (n2, G2) → sn0.run L (as ++ [a]) = some (n2, G ++ G2) := by
        intro as
        induction as with
        | nil => intro sn0 n1 G h hs; cases h; simp [StreamNet.run, hs]
        | cons b as ih =>
          intro sn0 n1 G h hs
          obtain ⟨sn1, G1, G2, k1, k2, rfl⟩ := run_cons h
          simp only [List.cons_append, StreamNet.run, k1, ih _ _ _ k2 hs, List.append_assoc]
      rw [← List.append_assoc]
      exact happ as' sn0 n1 _ h1 hs
    · rw [List.flatMap_append]
      intro op hop
      exact (List.mem_append.1 hop).elim (h2 op) (hint op)

end StreamNet

end ImapFlow

import Verif.Proofs.NetMessages
import Verif.Props.C21
import Verif.Props.C25

/-!
# A system that makes no step
-/

namespace ImapFlow

variable {L : Lib}

/-! ## Fragments -/

theorem CommandEncodes.split {relaxed : Bool} {c : Command} {p : Bytes} {fs : List Fragment}
    (h : CommandEncodes L relaxed c p fs) {pre post : List Fragment} {d : Bytes} {mode : LiteralMode}
    (hs : fs = pre ++ .literal d mode :: post) :
    ∃ l, IsLine l ∧ CrlfOk relaxed l ∧
      ((pre = [.line l] ∧ L.decodeCommand (p ++ l) = .error (.literalFound c.tag d.length mode) ∧
          CommandEncodes L relaxed c (p ++ l ++ d) post) ∨
       ∃ d0 m0 pre', pre = .line l :: .literal d0 m0 :: pre' ∧
        L.decodeCommand (p ++ l) = .error (.literalFound c.tag d0.length m0) ∧
        CommandEncodes L relaxed c (p ++ l ++ d0) (pre' ++ .literal d mode :: post)) := by
  cases h with
  | last h1 h2 h3 =>
    cases pre with
    | nil => simp at hs
    | cons x pre => simp at hs
  | @literal _ l d0 m0 fs h1 h2 h3 h4 =>
    refine ⟨l, h1, h2, ?_⟩
    cases pre with
    | nil => simp at hs
    | cons x pre =>
      simp only [List.cons_append, List.cons.injEq] at hs
      obtain ⟨rfl, hs⟩ := hs
      cases pre with
      | nil =>
        simp only [List.nil_append, List.cons.injEq, Fragment.literal.injEq] at hs
        obtain ⟨⟨rfl, rfl⟩, rfl⟩ := hs
        exact .inl ⟨rfl, h3, h4⟩
      | cons y pre =>
        simp only [List.cons_append, List.cons.injEq] at hs
        obtain ⟨rfl, rfl⟩ := hs
        exact .inr ⟨d0, m0, pre, rfl, h3, h4⟩

theorem CommandEncodes.wire_ne {relaxed : Bool} {c : Command} {p : Bytes} {fs : List Fragment}
    (h : CommandEncodes L relaxed c p fs) : wire fs ≠ [] := by
  cases h with
  | last h1 => simp [wire, Fragment.data, h1.ne_nil]
  | literal h1 => simp [wire, Fragment.data, h1.ne_nil]

/-- After a literal there is another line. -/
theorem CommandEncodes.after {relaxed : Bool} {c : Command} {p : Bytes} {fs pre post : List Fragment}
    (h : CommandEncodes L relaxed c p fs) {d : Bytes} {mode : LiteralMode}
    (hs : fs = pre ++ .literal d mode :: post) : wire post ≠ [] := by
  induction h generalizing pre with
  | last =>
    cases pre with
    | nil => simp at hs
    | cons x pre => simp at hs
  | @literal p l d0 m0 fs h1 h2 h3 h4 ih =>
    cases pre with
    | nil => simp at hs
    | cons x pre =>
      simp only [List.cons_append, List.cons.injEq] at hs
      obtain ⟨rfl, hs⟩ := hs
      cases pre with
      | nil =>
        simp only [List.nil_append, List.cons.injEq, Fragment.literal.injEq] at hs
        obtain ⟨⟨rfl, rfl⟩, rfl⟩ := hs
        exact h4.wire_ne
      | cons y pre =>
        simp only [List.cons_append, List.cons.injEq] at hs
        obtain ⟨rfl, rfl⟩ := hs
        exact ih rfl

/-- Before a literal there is a line. -/
theorem CommandEncodes.before {relaxed : Bool} {c : Command} {p : Bytes} {fs pre post : List Fragment}
    (h : CommandEncodes L relaxed c p fs) {d : Bytes} {mode : LiteralMode}
    (hs : fs = pre ++ .literal d mode :: post) : wire pre ≠ [] := by
  obtain ⟨l, h1, -, h⟩ := h.split hs
  rcases h with ⟨rfl, -⟩ | ⟨d0, m0, pre', rfl, -⟩ <;> simp [wire, Fragment.data, h1.ne_nil]

/-- The bytes before a literal determine the literal. -/
theorem CommandEncodes.literal_unique {relaxed : Bool} {c : Command} {p : Bytes} {fs pre post pre' post' : List Fragment}
    (h : CommandEncodes L relaxed c p fs) {d d' : Bytes} {mode mode' : LiteralMode}
    (hs : fs = pre ++ .literal d mode :: post) (hs' : fs = pre' ++ .literal d' mode' :: post')
    (hw : wire pre = wire pre') : pre = pre' := by
  induction h generalizing pre pre' with
  | last =>
    cases pre with
    | nil => simp at hs
    | cons x pre => simp at hs
  | @literal p l d0 m0 fs h1 h2 h3 h4 ih =>
    cases pre with
    | nil => simp at hs
    | cons x pre =>
      simp only [List.cons_append, List.cons.injEq] at hs
      obtain ⟨rfl, hs⟩ := hs
      cases pre' with
      | nil => simp at hs'
      | cons x' pre' =>
        simp only [List.cons_append, List.cons.injEq] at hs'
        obtain ⟨rfl, hs'⟩ := hs'
        simp only [wire_cons, List.append_cancel_left_eq] at hw
        cases pre with
        | nil =>
          cases pre' with
          | nil => rfl
          | cons y' pre' =>
            simp only [List.cons_append, List.cons.injEq] at hs'
            obtain ⟨rfl, rfl⟩ := hs'
            simp only [wire_cons] at hw
            exact absurd (List.append_eq_nil_iff.mp hw.symm).2 (h4.before rfl)
        | cons y pre =>
          simp only [List.cons_append, List.cons.injEq] at hs
          obtain ⟨rfl, rfl⟩ := hs
          cases pre' with
          | nil =>
            simp only [wire_cons] at hw
            exact absurd (List.append_eq_nil_iff.mp hw).2 (h4.before rfl)
          | cons y' pre' =>
            simp only [List.cons_append, List.cons.injEq] at hs'
            obtain ⟨rfl, hs'⟩ := hs'
            simp only [wire_cons, List.append_cancel_left_eq] at hw
            rw [ih rfl hs' hw]

/-- The line before a literal announces it. -/
theorem CommandEncodes.announces {os : ServerOptions} {c : Command} {p : Bytes} {fs pre post : List Fragment}
    (h : CommandEncodes L os.crlfRelaxed c p fs) (hp : Announced (commandFraming L os) p)
    (hl : ∀ d mode, .literal d mode ∈ fs → d.length ≤ os.maxLiteralSize) {d : Bytes} {mode : LiteralMode}
    (hs : fs = pre ++ .literal d mode :: post) :
    Announces (commandFraming L os) (p ++ wire pre) d.length ∧
      L.decodeCommand (p ++ wire pre) = .error (.literalFound c.tag d.length mode) := by
  induction h generalizing pre with
  | last =>
    cases pre with
    | nil => simp at hs
    | cons x pre => simp at hs
  | @literal p l d0 m0 fs h1 h2 h3 h4 ih =>
    have hacc : (commandFraming L os).lit (.literalFound c.tag d0.length m0) = some d0.length := by
      show CommandDecodeError.acceptable os.maxLiteralSize (.literalFound c.tag d0.length m0) = some d0.length
      rw [CommandDecodeError.acceptable, if_pos (hl d0 m0 (by simp))]
    cases pre with
    | nil => simp at hs
    | cons x pre =>
      simp only [List.cons_append, List.cons.injEq] at hs
      obtain ⟨rfl, hs⟩ := hs
      cases pre with
      | nil =>
        simp only [List.nil_append, List.cons.injEq, Fragment.literal.injEq] at hs
        obtain ⟨⟨rfl, rfl⟩, rfl⟩ := hs
        have hw : wire [.line l] = l := by simp [wire, Fragment.data]
        rw [hw]
        exact ⟨⟨p, l, _, rfl, hp, h1, h2, h3, hacc⟩, h3⟩
      | cons y pre =>
        simp only [List.cons_append, List.cons.injEq] at hs
        obtain ⟨rfl, rfl⟩ := hs
        have := ih (.literal hp h1 h2 h3 hacc) (fun d mode hm => hl d mode (by
          simp only [List.mem_cons]; exact .inr (.inr hm))) rfl
        have hw : p ++ wire (.line l :: .literal d0 m0 :: pre) = p ++ l ++ d0 ++ wire pre := by
          simp [wire, Fragment.data]
        rw [hw]
        exact this

/-! ## Lists -/

theorem crossing {α : Type} (f : List α → Nat) (j : Nat) (C1 C2 : List α) (h1 : f C1 ≤ j) (h2 : j < f (C1 ++ C2)) :
    ∃ D1 i D2, C2 = D1 ++ i :: D2 ∧ f (C1 ++ D1) ≤ j ∧ j < f (C1 ++ D1 ++ [i]) := by
  induction C2 using snocInduction with
  | nil => rw [List.append_nil] at h2; omega
  | snoc C i ih =>
    rcases Nat.lt_or_ge j (f (C1 ++ C)) with h | h
    · obtain ⟨D1, i', D2, rfl, h3, h4⟩ := ih h
      exact ⟨D1, i', D2 ++ [i], by simp, h3, h4⟩
    · exact ⟨C, i, [], rfl, h, by rw [List.append_assoc]; exact h2⟩

theorem serverItems_split {T : List NItem} {B1 B2 : List SItem} {i : SItem} (h : serverItems T = B1 ++ i :: B2) :
    ∃ P Q, T = P ++ .server i :: Q ∧ serverItems P = B1 ∧ serverItems Q = B2 := by
  unfold serverItems at h
  obtain ⟨P, R, rfl, h1, h2⟩ := List.filterMap_eq_append_iff.mp h
  obtain ⟨R1, x, R2, rfl, h3, h4, h5⟩ := List.filterMap_eq_cons_iff.mp h2
  cases x with
  | client c => cases h4
  | server s =>
    cases h4
    refine ⟨P ++ R1, R2, by simp, ?_, h5⟩
    unfold serverItems
    rw [List.filterMap_append, h1, List.filterMap_eq_nil_iff.mpr h3, List.append_nil]

theorem mem_serverLiterals {T : List SItem} {p : Bytes} (h : p ∈ serverLiterals T) :
    ∃ B1 rs B2, T = B1 ++ .literal p rs :: B2 ∧ ∀ j ∈ B2, j.reads = false := by
  induction T using snocInduction with
  | nil => cases h
  | snoc T i ih =>
    rw [Server.serverLiterals_snoc] at h
    have old : p ∈ serverLiterals T → i.reads = false →
        ∃ B1 rs B2, T ++ [i] = B1 ++ .literal p rs :: B2 ∧ ∀ j ∈ B2, j.reads = false := by
      intro h hr
      obtain ⟨B1, rs, B2, rfl, h2⟩ := ih h
      refine ⟨B1, rs, B2 ++ [i], by simp, ?_⟩
      intro j hj
      rcases List.mem_append.mp hj with hj | hj
      · exact h2 j hj
      · rw [List.mem_singleton.mp hj]; exact hr
    cases i with
    | literal q rs =>
      simp only [List.mem_append, List.mem_singleton] at h
      rcases h with h | rfl
      · exact old h rfl
      · exact ⟨T, rs, [], rfl, by simp⟩
    | received w e => cases h
    | failed e rs => cases h
    | _ => exact old h rfl

/-! ## The view between outputs -/

theorem ClientView.observe_still {v : ClientView} {i : CItem} (ho : i.outputs = []) (hs : (v.observe i).sent ≠ []) :
    (v.observe i).ended = v.ended ∧ (v.observe i).sent = v.sent ∧ v.released ≤ (v.observe i).released ∧
      v.enqueued <+: (v.observe i).enqueued := by
  have ev : ∀ (w : ClientView) (e : ClientEvent), (w.event e).sent ≠ [] →
      (w.event e).ended = w.ended ∧ (w.event e).sent = w.sent ∧ w.released ≤ (w.event e).released ∧
        w.enqueued <+: (w.event e).enqueued := by
    intro w e h
    unfold ClientView.event at h ⊢
    split at h
    · exact absurd rfl h
    · rename_i ht
      rw [if_neg ht]
      cases e <;> simp
  cases i with
  | setAuth d r => cases r <;> simp [observe]
  | setDone r => cases r <;> simp [observe]
  | sent e => exact ev v e hs
  | received w e => exact ev { v with consumed := v.consumed ++ w } e hs
  | output b =>
    have : b = [] := ho
    subst this
    simp [observe]
  | _ => simp [observe]

theorem ClientView.of_still (T U : List CItem) (ho : clientOutput U = []) (hs : (of (T ++ U)).sent ≠ []) :
    (of (T ++ U)).ended = (of T).ended ∧ (of (T ++ U)).sent = (of T).sent ∧
      (of T).released ≤ (of (T ++ U)).released ∧ (of T).enqueued <+: (of (T ++ U)).enqueued := by
  induction U using snocInduction with
  | nil => simp
  | snoc U i ih =>
    rw [clientOutput_append] at ho
    obtain ⟨ho1, ho2⟩ := List.append_eq_nil_iff.mp ho
    have ho2 : i.outputs = [] := by simpa [clientOutput] using ho2
    rw [← List.append_assoc, of_snoc] at hs ⊢
    obtain ⟨h1, h2, h3, h4⟩ := observe_still ho2 hs
    rw [h2] at hs
    obtain ⟨g1, g2, g3, g4⟩ := ih ho1 hs
    exact ⟨h1.trans g1, h2.trans g2, Nat.le_trans g3 h3, g4.trans h4⟩

theorem CItem.decoded_length (i : CItem) : (i.decoded L).length ≤ 1 := by
  cases i with
  | received w e => cases e <;> simp [decoded, ClientEvent.response?]
  | released w =>
    simp only [decoded]
    split <;> simp
  | _ => simp [decoded]

/-! ## One more call on each side -/

theorem Client.next_starved {c c' : Client} (h : c.next L = .ok (c', .error (.io .needMoreInput))) :
    ∃ ws : List Bytes, c.nextTrace L = .ok (c', ws.map .released ++ [.starved]) := by
  have he := Client.nextTrace_erase L c
  rw [h] at he
  cases hn : c.nextTrace L with
  | error p => rw [hn] at he; cases he
  | ok x =>
    obtain ⟨c1, T⟩ := x
    obtain ⟨ws, i, rfl, h1, h2⟩ := Client.nextTrace_shape hn
    rw [hn] at he
    simp only [Client.eraseRes, Except.map, Except.ok.injEq, Prod.mk.injEq] at he
    obtain ⟨rfl, he⟩ := he
    refine ⟨ws, ?_⟩
    have hz : (ws.map CItem.released).filterMap CItem.erase = [] := by
      rw [List.filterMap_eq_nil_iff]
      intro a ha
      obtain ⟨w, -, rfl⟩ := List.mem_map.mp ha
      rfl
    rw [List.filterMap_append, hz, List.nil_append] at he
    cases i <;> first | rfl | (cases he; done) | (exfalso; simp [CItem.erase] at he; done)

theorem Server.next_starved {s s' : Server} (h : s.next L = .ok (s', .error (.io .needMoreInput))) :
    ∃ U : List SItem, s.nextTrace L = .ok (s', U ++ [.starved]) ∧
      ∀ j ∈ U, j = .quiet ∨ ∃ p rs, j = .literal p rs := by
  have he := Server.nextTrace_erase L s
  rw [h] at he
  cases hn : s.nextTrace L with
  | error p => rw [hn] at he; cases he
  | ok x =>
    obtain ⟨s1, T⟩ := x
    obtain ⟨U, i, rfl, h1, h2⟩ := Server.nextTrace_shape hn
    rw [hn] at he
    simp only [Server.eraseRes, Except.map, Except.ok.injEq, Prod.mk.injEq] at he
    obtain ⟨rfl, he⟩ := he
    refine ⟨U, ?_, h2⟩
    have hz : U.filterMap SItem.erase = [] := by
      rw [List.filterMap_eq_nil_iff]
      intro a ha
      rcases h2 a ha with rfl | ⟨p, rs, rfl⟩ <;> rfl
    rw [List.filterMap_append, hz, List.nil_append] at he
    cases i <;> first | rfl | (cases he; done) | (exfalso; simp [SItem.erase] at he; done)

variable {gc gs : HandleGenerator} {oc : ClientOptions} {os : ServerOptions} {gr : Greeting}
  {n : Net} {T : List NItem}

/-- In a stuck system one more call on each side changes nothing observable. -/
theorem Net.Linked.stuck (h : Net.Linked L gc oc gs os gr n T) (hs : n.Stuck L) :
    ∃ (n' : Net) (ws : List Bytes) (U : List SItem),
      Net.Linked L gc oc gs os gr n'
        (T ++ (ws.map CItem.released ++ [CItem.starved]).map .client ++ (U ++ [SItem.starved]).map .server) ∧
      n'.toServer = [] ∧ n'.toClient = [] ∧ ∀ j ∈ U, j = .quiet ∨ ∃ p rs, j = .literal p rs := by
  obtain ⟨h1, h2, ⟨c, hc⟩, s, hsv⟩ := hs
  obtain ⟨ws, hc⟩ := Client.next_starved hc
  obtain ⟨U, hsv, hU⟩ := Server.next_starved hsv
  have ho : clientOutput (ws.map CItem.released ++ [CItem.starved]) = [] := by
    rw [clientOutput_append]
    simp [clientOutput, CItem.outputs, List.flatMap_map]
  have ho' : serverOutput (U ++ [SItem.starved]) = [] := by
    unfold serverOutput
    rw [List.flatMap_eq_nil_iff]
    intro a ha
    rcases List.mem_append.mp ha with ha | ha
    · rcases hU a ha with rfl | ⟨p, rs, rfl⟩ <;> rfl
    · rw [List.mem_singleton.mp ha]; rfl
  have e1 : n.step L (.client .next) =
      .ok ({ n with client := c }, (ws.map CItem.released ++ [CItem.starved]).map .client) := by
    simp only [Net.step, Net.callClient, Client.callTrace, hc, ho, List.append_nil]
  have e2 : ({ n with client := c } : Net).step L (.server .next) =
      .ok ({ n with client := c, server := s }, (U ++ [SItem.starved]).map .server) := by
    simp only [Net.step, Net.callServer, Server.callTrace, hsv, ho', List.append_nil]
  exact ⟨_, ws, U, (h.step e1).step e2, h1, h2, hU⟩

end ImapFlow

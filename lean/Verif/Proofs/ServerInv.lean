import Verif.Proofs.ServerTrace
import Verif.Proofs.Outcome

/-!
# The server invariant

Relates the state of the server to the observer's view of its trace, and collects for every kind of
item what must hold when it happens (`Server.Guard`).
-/

namespace ImapFlow

open ReceiveState

variable {ε μ : Type}

/-! ## Receiving a line without literals -/

theorem receiveServerLine_outcome {F : Framing SimpleDecodeError μ} {s : ReceiveState}
    (hlit : ∀ e, F.lit e = none) (h : Reading F s) :
    RxOutcome F s .expectedCrlfGotLf .malformedMessage .commandTooLong (receiveServerLine F.dec s) := by
  have ho := next_outcome h
  unfold receiveServerLine
  generalize s.next F.dec = r at ho
  cases ho with
  | message a b c => exact .of_message a b c
  | failure a b c => exact .of_failure a b c (hlit _)
  | badLine a b => exact .of_badLine a b
  | tooLong a b c d e f _ => exact .of_tooLong a b c d e f
  | needMore a b c d e _ _ _ =>
    exact .needMore (by rw [d.1, h.1]) b c d e (fun max hm => max_of_needMore a hm)
  | assertFailed a b c d => exact .panic a.announced a.line c d

/-! ## Announcements of literals -/

/-- Where an announcement can be relative to a line start `p`. -/
theorem Announces.compare {F : Framing ε μ} {q p l X : Bytes} {k : Nat} (hq : Announces F q k)
    (hp : Announced F p) (hl : IsLine l) (hqX : q <+: X) (hpX : p ++ l <+: X) :
    q.length ≤ p.length ∨ q = p ++ l ∨
      (CrlfOk F.relaxed l ∧ ∃ e d, F.dec (p ++ l) = .error e ∧ F.lit e = some d ∧
        (p ++ l).length + d < q.length) := by
  obtain ⟨q0, ql, e, rfl, h1, h2, h3, h4, h5⟩ := hq
  have hq0 : q0 <+: X := (List.prefix_append _ _).trans hqX
  have hp0 : p <+: X := (List.prefix_append _ _).trans hpX
  have hlen : 0 < ql.length := List.length_pos_iff.mpr h2.ne_nil
  rcases Nat.le_total q0.length p.length with hle | hle
  · rcases h1.compare h2 hqX hp hp0 hle with rfl | ⟨-, e', d, -, -, hd⟩
    · exact .inr (.inl (by rw [h2.unique_after hl hqX hpX]))
    · left
      have := hd.length_le
      simp only [List.length_append] at this ⊢
      omega
  · rcases hp.compare hl hpX h1 hq0 hle with rfl | ⟨hc, e', d, h6, h7, hd⟩
    · exact .inr (.inl (by rw [h2.unique_after hl hqX hpX]))
    · right; right
      refine ⟨hc, e', d.length, h6, h7, ?_⟩
      have := hd.length_le
      simp only [List.length_append] at this ⊢
      omega

/-- `ls` are exactly the announcements before the position of the receive state. -/
def LitOk (F : Framing ε μ) (ls : List Bytes) (st : ReceiveState) : Prop :=
  ls.Pairwise (fun a b => a.length < b.length) ∧
  (∀ q ∈ ls, q <+: st.readBuffer ∧ q.length ≤ st.seenBytes ∧ ∃ k, Announces F q k) ∧
  ∀ X q k, st.readBuffer <+: X → q <+: X → Announces F q k → q.length ≤ st.resumeAt → q ∈ ls

theorem LitOk.fresh {F : Framing ε μ} {relaxed : Bool} {max : Option Nat} {buf : Bytes} :
    LitOk F [] (withReadBuffer relaxed max buf) := by
  refine ⟨List.Pairwise.nil, by simp, ?_⟩
  intro X q k _ _ ⟨p, l, e, hq, _, hl, _⟩ hle
  have h0 : (withReadBuffer relaxed max buf).resumeAt = 0 := rfl
  have := List.length_pos_iff.mpr hl.ne_nil
  rw [hq, h0] at hle
  simp only [List.length_append] at hle
  omega

theorem LitOk.enqueue {F : Framing ε μ} {ls : List Bytes} {st : ReceiveState} (h : LitOk F ls st)
    (x : Bytes) : LitOk F ls (st.enqueueInput x) := by
  obtain ⟨h1, h2, h3⟩ := h
  refine ⟨h1, ?_, ?_⟩
  · intro q hq
    obtain ⟨ha, hb, hc⟩ := h2 q hq
    exact ⟨ha.trans (List.prefix_append _ _), hb, hc⟩
  · intro X q k hX
    exact h3 X q k ((List.prefix_append _ _).trans hX)

theorem LitOk.congr {F : Framing ε μ} {ls : List Bytes} {st st' : ReceiveState} (h : LitOk F ls st)
    (hb : st'.readBuffer = st.readBuffer) (hr : st'.resumeAt = st.resumeAt)
    (hs : st.seenBytes ≤ st'.seenBytes) : LitOk F ls st' := by
  unfold LitOk
  rw [hb, hr]
  refine ⟨h.1, fun q hq => ?_, h.2.2⟩
  obtain ⟨h1, h2, h3⟩ := h.2.1 q hq
  exact ⟨h1, by omega, h3⟩

theorem seen_le_resumeAt (st : ReceiveState) : st.seenBytes ≤ st.resumeAt := by
  unfold resumeAt
  split <;> omega

theorem LineAt.prefix_buffer {F : Framing ε μ} {s : ReceiveState} {n : Nat} {p l : Bytes}
    (h : LineAt F s n p l) : p ++ l <+: s.readBuffer := by
  rw [h.buffer]; exact List.prefix_append _ _

theorem LitOk.literal {F : Framing ε μ} {ls : List Bytes} {st : ReceiveState} {n k : Nat} {p l : Bytes}
    {e : ε} (h : LitOk F ls st) (ha : LineAt F st n p l) (hc : CrlfOk F.relaxed l)
    (hd : F.dec (p ++ l) = .error e) (he : F.lit e = some k) :
    LitOk F (ls ++ [p ++ l]) ((st.atLine n).startLiteral k) := by
  obtain ⟨h1, h2, h3⟩ := h
  have hlen := ha.length
  have hlpos := List.length_pos_iff.mpr ha.line.ne_nil
  have hst := ha.start
  have hres : ((st.atLine n).startLiteral k).resumeAt = n + k := rfl
  have hsn : ((st.atLine n).startLiteral k).seenBytes = n := rfl
  have hsr := seen_le_resumeAt st
  have hbuf : ((st.atLine n).startLiteral k).readBuffer = st.readBuffer := rfl
  have hpl := LineAt.prefix_buffer ha
  refine ⟨?_, ?_, ?_⟩
  · rw [List.pairwise_append]
    refine ⟨h1, by simp, ?_⟩
    intro a ha' b hb
    rw [List.mem_singleton] at hb
    subst hb
    have := (h2 a ha').2.1
    simp only [List.length_append] at hlen ⊢
    omega
  · intro q hq
    rw [hsn, hbuf]
    rcases List.mem_append.mp hq with hq | hq
    · obtain ⟨ha', hb, hc⟩ := h2 q hq
      refine ⟨ha', ?_, hc⟩
      have := ha.lt
      omega
    · rw [List.mem_singleton] at hq
      subst hq
      exact ⟨hpl, by omega, k, p, l, e, rfl, ha.announced, ha.line, hc, hd, he⟩
  · intro X q j hX hq hqa hle
    rw [hbuf] at hX
    rw [hres] at hle
    rcases hqa.compare ha.announced ha.line hq (hpl.trans hX) with hlt | rfl | ⟨-, e', d, h4, h5, h6⟩
    · exact List.mem_append_left _ (h3 X q j hX hq hqa (by omega))
    · simp
    · rw [hd] at h4
      cases h4
      rw [he] at h5
      cases h5
      omega

theorem LitOk.all {F : Framing ε μ} {ls : List Bytes} {st : ReceiveState} {n : Nat} {p l : Bytes}
    (h : LitOk F ls st) (ha : LineAt F st n p l)
    (hc : CrlfOk F.relaxed l → ∀ e, F.dec (p ++ l) = .error e → F.lit e = none) :
    AllAnnouncements F (p ++ l) ls := by
  obtain ⟨h1, h2, h3⟩ := h
  refine ⟨h1, fun q => ⟨fun hq => ?_, fun ⟨hq, k, hqa⟩ => ?_⟩⟩
  · obtain ⟨hb, hle, hk⟩ := h2 q hq
    refine ⟨prefix_of_le hb (LineAt.prefix_buffer ha) ?_, hk⟩
    have hsr := seen_le_resumeAt st
    rw [← ha.start] at hsr
    simp only [List.length_append]
    omega
  · have hpl := LineAt.prefix_buffer ha
    rcases hqa.compare ha.announced ha.line (hq.trans hpl) hpl with hlt | rfl | ⟨h4, e', d, h5, h6, -⟩
    · exact h3 _ q k (List.prefix_refl _) (hq.trans hpl) hqa (by rw [← ha.start]; exact hlt)
    · obtain ⟨p', l', e, hpl', h4, h5, h6, h7, h8⟩ := hqa
      have hcr : CrlfOk F.relaxed l := by
        -- the last line of the same bytes
        have : p' = p ∧ l' = l := by
          have := h4.compare (q := p) (X := p ++ l) h5 (hpl' ▸ List.prefix_refl _) ha.announced
            (List.prefix_append _ _)
          have hlp := List.length_pos_iff.mpr ha.line.ne_nil
          have hlp' := List.length_pos_iff.mpr h5.ne_nil
          have hlen := congrArg List.length hpl'
          simp only [List.length_append] at hlen
          rcases Nat.le_total p'.length p.length with hle | hle
          · rcases this hle with rfl | ⟨-, e', d, -, -, hd⟩
            · exact ⟨rfl, (List.append_cancel_left hpl').symm⟩
            · have := hd.length_le
              simp only [List.length_append] at this
              omega
          · rcases ha.announced.compare (q := p') (X := p ++ l) ha.line (List.prefix_refl _) h4
              (hpl' ▸ List.prefix_append _ _) hle with rfl | ⟨-, e', d, -, -, hd⟩
            · exact ⟨rfl, (List.append_cancel_left hpl').symm⟩
            · have := hd.length_le
              simp only [List.length_append] at this
              omega
        rw [← this.2]; exact h6
      have := hc hcr e h7
      rw [this] at h8
      cases h8
    · have := hc h4 e' h5
      rw [this] at h6
      cases h6

theorem LitOk.unfinished {F : Framing ε μ} {ls : List Bytes} {st : ReceiveState} {X : Bytes}
    (h : LitOk F ls st) (hX : X <+: st.readBuffer) (hs : st.seenBytes ≤ X.length)
    (hn : LF ∉ X.drop st.resumeAt) : AllAnnouncements F X ls := by
  obtain ⟨h1, h2, h3⟩ := h
  refine ⟨h1, fun q => ⟨fun hq => ?_, fun ⟨hq, k, hqa⟩ => ?_⟩⟩
  · obtain ⟨hb, hle, hk⟩ := h2 q hq
    exact ⟨prefix_of_le hb hX (by omega), hk⟩
  · refine h3 _ q k (List.prefix_refl _) (hq.trans hX) hqa (Nat.le_of_not_lt fun hlt => hn ?_)
    obtain ⟨p, l, e, rfl, -, ⟨b, rfl, -⟩, -⟩ := hqa
    obtain ⟨r, rfl⟩ := hq
    simp only [List.length_append, List.length_singleton] at hlt
    rw [show p ++ (b ++ [LF]) ++ r = (p ++ b) ++ (LF :: r) by simp,
      List.drop_append_of_le_length (by simp; omega)]
    simp

/-! ## Invariant and guards -/

/-- The sending side. -/
def ServerView.SendInv (L : Lib) (v : ServerView) (s : ServerSendState) : Prop :=
  s.queuedMessages = v.messages.drop v.outputs.length ∧ v.outputs.length ≤ v.messages.length ∧
  v.outputs = (v.messages.take v.outputs.length).map (ServerMessage.bytes L) ∧
  match s.currentMessage with
  | none => v.finished = v.outputs.length
  | some m => v.outputs.length = v.finished + 1 ∧ v.messages[v.finished]? = some m

/-- The receive state belongs to the framing. -/
def ServerView.RxInv (F : Framing ε μ) (o : ServerOptions) (v : ServerView) (st : ReceiveState) : Prop :=
  Reading F st ∧ st.maxMessageSize = some o.maxCommandSize ∧ v.given = v.consumed ++ st.readBuffer

/-- The receiving side. -/
def ServerView.ReceiveInv (L : Lib) (o : ServerOptions) (v : ServerView) : ServerReceiveState → Prop
  | .command st => v.phase = .command ∧ v.RxInv (commandFraming L o) o st ∧
      LitOk (commandFraming L o) v.literals st
  | .authenticateData st => v.phase = .authenticate ∧ v.RxInv (authenticateFraming L o) o st ∧ v.literals = []
  | .idleAccept st => v.phase = .idlePending ∧ st.crlfRelaxed = o.crlfRelaxed ∧
      st.maxMessageSize = some o.maxCommandSize ∧ v.given = v.consumed ++ st.readBuffer ∧ v.literals = []
  | .idleDone st => v.phase = .idle ∧ v.RxInv (idleFraming L o) o st ∧ v.literals = []
  | .dummy => False

/-- The invariant of the server. -/
def Server.Inv (L : Lib) (o : ServerOptions) (v : ServerView) (s : Server) : Prop :=
  s.options = o ∧ v.SendInv L s.sendState ∧ v.ReceiveInv L o s.receiveState

/-- `next` goes on to receive. -/
def ServerView.Clear (v : ServerView) : Prop :=
  v.finished = v.outputs.length ∧ (v.quiet = true ∨ v.outputs.length = v.messages.length)

/-- A request of the user is granted exactly if `p` holds; otherwise the argument is returned. -/
def Granted {α : Type} (p : Prop) (arg : α) (r : Except α RawHandle) : Prop :=
  (p ∧ ∃ h, r = .ok h) ∨ (¬ p ∧ r = .error arg)

/-- What must hold when an item happens. -/
def Server.Guard (L : Lib) (o : ServerOptions) (v : ServerView) : SItem → Prop
  | .enqueue .. | .input _ => True
  | .authContinue q r => Granted (v.phase = .authenticate) q r
  | .authFinish st r => Granted (v.phase = .authenticate) st r
  | .idleAccept q r => Granted (v.phase = .idlePending) q r
  | .idleReject st r => Granted (v.phase = .idlePending) st r
  | .output b => v.finished = v.outputs.length ∧
      ∃ m, v.messages[v.outputs.length]? = some m ∧ b = m.bytes L
  | .sent e => v.outputs.length = v.finished + 1 ∧ ∃ m, v.messages[v.finished]? = some m ∧ m.event = some e
  | .quiet => v.outputs.length = v.finished + 1 ∧ ∃ m, v.messages[v.finished]? = some m ∧ m.event = none
  | .received w e => v.Clear ∧ (∃ rest, v.given = v.consumed ++ w ++ rest) ∧ w.length ≤ o.maxCommandSize ∧
      Taken L o v.phase w e ∧ (v.phase = .command → AllAnnouncements (commandFraming L o) w v.literals)
  | .literal p rs => v.Clear ∧ (∃ rest, v.given = v.consumed ++ p ++ rest) ∧ p.length ≤ o.maxCommandSize ∧
      v.phase = .command ∧ (∀ q ∈ v.literals, q.length < p.length) ∧
      ∃ tag k mode, Announces (commandFraming L o) p k ∧
        L.decodeCommand p = .error (.literalFound tag k mode) ∧ rs = acceptReply L o mode
  | .failed e rs => v.Clear ∧ (∃ rest, v.given = v.consumed ++ e.bytes ++ rest) ∧ Discarded L o v.phase e rs ∧
      (v.phase = .command → AllAnnouncements (commandFraming L o) e.bytes v.literals)
  | .starved => v.Clear ∧ Starving L o v.phase v.unread ∧
      (v.phase = .command → AllAnnouncements (commandFraming L o) v.unread v.literals)

/-! ## Lemmas -/

theorem ServerView.SendInv.enqueue {L : Lib} {v v' : ServerView} {s : ServerSendState} (h : v.SendInv L s)
    {m : List ServerMessage} (h1 : v'.messages = v.messages ++ m) (h2 : v'.outputs = v.outputs)
    (h3 : v'.finished = v.finished) :
    v'.SendInv L { s with queuedMessages := s.queuedMessages ++ m } := by
  obtain ⟨a, b, c, d⟩ := h
  refine ⟨?_, ?_, ?_, ?_⟩
  · rw [h1, h2, List.drop_append_of_le_length b, a]
  · rw [h1, h2, List.length_append]; omega
  · rw [h1, h2, List.take_append_of_le_length b]; exact c
  · show match s.currentMessage with
      | none => v'.finished = v'.outputs.length
      | some m => v'.outputs.length = v'.finished + 1 ∧ v'.messages[v'.finished]? = some m
    rw [h1, h2, h3]
    cases hc : s.currentMessage with
    | none => rw [hc] at d; exact d
    | some m' =>
      rw [hc] at d
      refine ⟨d.1, ?_⟩
      rw [List.getElem?_append_left (by omega)]
      exact d.2

theorem ServerView.SendInv.congr {L : Lib} {v v' : ServerView} {s : ServerSendState} (h : v.SendInv L s)
    (h1 : v'.messages = v.messages) (h2 : v'.outputs = v.outputs) (h3 : v'.finished = v.finished) :
    v'.SendInv L s := by
  unfold ServerView.SendInv
  rw [h1, h2, h3]
  exact h

theorem ServerView.SendInv.clear {L : Lib} {v : ServerView} {s : Server} (h : v.SendInv L s.sendState)
    (hc : Server.Clear v.quiet s) : v.Clear := by
  obtain ⟨a, b, c, d⟩ := h
  obtain ⟨h1, h2⟩ := hc
  rw [h1] at d
  refine ⟨d, ?_⟩
  rcases h2 with h2 | h2
  · exact .inl h2
  · right
    rw [h2] at a
    have := List.drop_eq_nil_iff.mp a.symm
    omega

theorem Server.consumed_eq {s s2 : Server} {w rest : Bytes} (h1 : s.buffer = w ++ rest)
    (h2 : s2.buffer = rest) : Server.consumed s s2 = w := by
  unfold Server.consumed
  rw [h1, h2]
  simp

/-- A fresh receive state after the bytes `w` were taken. -/
theorem ServerView.RxInv.take {F : Framing ε μ} {ε' μ' : Type} {G : Framing ε' μ'} {o : ServerOptions}
    {v v' : ServerView}
    {st : ReceiveState} {w rest : Bytes} (h : v.RxInv F o st) (hb : st.readBuffer = w ++ rest)
    (hg : v'.given = v.given) (hc : v'.consumed = v.consumed ++ w) (hF : F.relaxed = G.relaxed) :
    v'.RxInv G o (withReadBuffer st.crlfRelaxed st.maxMessageSize rest) := by
  obtain ⟨h1, h2, h3⟩ := h
  refine ⟨?_, h2, ?_⟩
  · rw [h1.1, hF]; exact reading_fresh
  · rw [hg, hc, h3, hb, List.append_assoc]; rfl

theorem ServerView.unread_eq {v : ServerView} {b : Bytes} (h : v.given = v.consumed ++ b) : v.unread = b := by
  unfold ServerView.unread
  rw [h]; simp

/-! ## Receiving -/

/-- The item of a result of `progress_receive`. -/
def Server.rxItem (s s2 : Server) : Except (Interrupt ServerError) (Option ServerEvent) → SItem
  | .error (.io (.output b)) => .output b
  | .error (.io .needMoreInput) => .starved
  | .error (.error e) => .failed e (replies s s2)
  | .ok (some e) => .received (consumed s s2) e
  | .ok none => .literal s2.seen (replies s s2)

theorem Server.replies_same {o o' : ServerOptions} {g g' : HandleGenerator} {snd : ServerSendState}
    {r r' : ServerReceiveState} : replies ⟨o, g, snd, r⟩ ⟨o', g', snd, r'⟩ = [] := by
  simp [replies]

theorem Server.replies_enqueue {o o' : ServerOptions} {g g' : HandleGenerator} {snd : ServerSendState}
    {r r' : ServerReceiveState} {h : Option RawHandle} {m : Response} :
    replies ⟨o, g, snd, r⟩ ⟨o', g', snd.enqueueResponse h m, r'⟩ = [.response h m] := by
  simp [replies, ServerSendState.enqueueResponse]

/-- Literals are announced only by `LiteralFound` with an acceptable length. -/
theorem CommandDecodeError.acceptable_some {max k : Nat} {e : CommandDecodeError}
    (h : CommandDecodeError.acceptable max e = some k) : ∃ tag mode, e = .literalFound tag k mode ∧ k ≤ max := by
  cases e with
  | incomplete => cases h
  | failed => cases h
  | literalFound tag j mode =>
    simp only [acceptable] at h
    split at h
    · cases h; exact ⟨tag, mode, rfl, by assumption⟩
    · cases h

theorem ServerView.RxInv.length_le {F : Framing ε μ} {o : ServerOptions} {v : ServerView} {st : ReceiveState}
    {n : Nat} {p l : Bytes} (h : v.RxInv F o st) (ha : LineAt F st n p l) :
    (p ++ l).length ≤ o.maxCommandSize := ha.max _ h.2.1

theorem ServerView.RxInv.given {F : Framing ε μ} {o : ServerOptions} {v : ServerView} {st : ReceiveState}
    {w rest : Bytes} (h : v.RxInv F o st) (hb : st.readBuffer = w ++ rest) :
    ∃ rest, v.given = v.consumed ++ w ++ rest :=
  ⟨rest, by rw [h.2.2, hb, List.append_assoc]⟩

/-- Outcome of the phases without literals. -/
theorem Server.line_inv {F : Framing SimpleDecodeError μ} {o : ServerOptions} {v : ServerView}
    {st st2 : ReceiveState} {r : Except (Interrupt ServerError) μ} (h : v.RxInv F o st)
    (ho : RxOutcome F st .expectedCrlfGotLf .malformedMessage .commandTooLong (.ok (st2, r))) :
    (∃ w rest m, r = .ok m ∧ st.readBuffer = w ++ rest ∧ IsMessage F w m ∧ w.length ≤ o.maxCommandSize ∧
      st2 = withReadBuffer st.crlfRelaxed st.maxMessageSize rest) ∨
    (∃ e rest, r = .error (.error e) ∧ st.readBuffer = e.bytes ++ rest ∧
      DiscardedAs F o.maxCommandSize e ∧ st2 = withReadBuffer st.crlfRelaxed st.maxMessageSize rest) ∨
    (r = .error (.io .needMoreInput) ∧ IsUnfinished F st.readBuffer ∧
      st.readBuffer.length < o.maxCommandSize ∧ v.RxInv F o st2) := by
  have hm := h.2.1
  generalize hx : (Except.ok (st2, r) : Res ReceiveState ServerError μ) = x at ho
  cases ho with
  | message a b c =>
    simp only [Except.ok.injEq, Prod.mk.injEq] at hx
    obtain ⟨rfl, rfl⟩ := hx
    exact .inl ⟨_, _, _, rfl, a, b, c _ hm, rfl⟩
  | malformed a b c =>
    simp only [Except.ok.injEq, Prod.mk.injEq] at hx
    obtain ⟨rfl, rfl⟩ := hx
    exact .inr (.inl ⟨_, _, rfl, a, ⟨⟨_, b⟩, c _ hm⟩, rfl⟩)
  | badLine a b c =>
    simp only [Except.ok.injEq, Prod.mk.injEq] at hx
    obtain ⟨rfl, rfl⟩ := hx
    exact .inr (.inl ⟨_, _, rfl, a, ⟨b, c _ hm⟩, rfl⟩)
  | tooLong a b c =>
    simp only [Except.ok.injEq, Prod.mk.injEq] at hx
    obtain ⟨rfl, rfl⟩ := hx
    rw [hm] at c
    simp only [Option.some.injEq] at c
    exact .inr (.inl ⟨_, _, rfl, a, ⟨b, c.symm⟩, rfl⟩)
  | needMore a b c d e f =>
    simp only [Except.ok.injEq, Prod.mk.injEq] at hx
    obtain ⟨rfl, rfl⟩ := hx
    exact .inr (.inr ⟨rfl, e, f _ hm, d, by rw [b]; exact hm, by rw [c]; exact h.2.2⟩)
  | panic => cases hx

theorem Server.discardCommand_eq {s : Server} {st : ReceiveState} {mk : Bytes → ServerError}
    (h : st.seenBytes ≤ st.readBuffer.length) :
    discardCommand s st mk =
      .ok ({ s with receiveState := ServerReceiveState.command (withReadBuffer st.crlfRelaxed st.maxMessageSize (st.readBuffer.drop st.seenBytes)) },
           .error (.error (mk (st.readBuffer.take st.seenBytes)))) := by
  unfold discardCommand
  rw [discardMessage_eq h]

theorem Server.progressReceive_inv {L : Lib} {o : ServerOptions} {v : ServerView} {s s2 : Server}
    {r : Except (Interrupt ServerError) (Option ServerEvent)} (h : s.Inv L o v) (hcl : v.Clear)
    (hr : progressReceive L s = .ok (s2, r)) :
    Guard L o v (rxItem s s2 r) ∧ s2.Inv L o (v.observe (rxItem s s2 r)) := by
  obtain ⟨so, g, snd, rcv⟩ := s
  obtain ⟨ho, hs, hrx⟩ := h
  simp only at ho hs hrx
  subst ho
  unfold progressReceive at hr
  simp only at hr
  cases rcv with
  | dummy => exact hrx.elim
  | idleAccept st =>
    simp only [Except.ok.injEq, Prod.mk.injEq] at hr
    obtain ⟨rfl, rfl⟩ := hr
    obtain ⟨hp, a, b, c, d⟩ := hrx
    refine ⟨⟨hcl, by rw [hp]; trivial, by rw [hp]; simp⟩, rfl, hs.congr rfl rfl rfl, hp, a, b, c, d⟩
  | authenticateData st =>
    obtain ⟨hp, hx, hl⟩ := hrx
    have hout := receiveServerLine_outcome (F := authenticateFraming L so) (fun _ => rfl) hx.1
    have e1 : (authenticateFraming L so).dec = L.decodeAuthenticateData := rfl
    rw [e1] at hout
    simp only at hr
    cases hq : receiveServerLine L.decodeAuthenticateData st with
    | error p => simp [hq] at hr
    | ok x =>
      obtain ⟨st2, r2⟩ := x
      rw [hq] at hout
      rcases Server.line_inv hx hout with ⟨w, rest, m, rfl, hb, hm, hlen, rfl⟩ | ⟨e, rest, rfl, hb, hd, rfl⟩ |
        ⟨rfl, hu, hlen, hx2⟩
      · simp only [hq, Except.ok.injEq, Prod.mk.injEq] at hr
        obtain ⟨rfl, rfl⟩ := hr
        simp only [rxItem]
        rw [consumed_eq (s := ⟨so, g, snd, .authenticateData st⟩) (w := w) (rest := rest) hb rfl]
        exact ⟨⟨hcl, hx.given hb, hlen, by rw [hp]; exact ⟨m, hm, rfl⟩, by rw [hp]; simp⟩, rfl,
          hs.congr rfl rfl rfl, hp, hx.take hb rfl rfl rfl, rfl⟩
      · simp only [hq, Except.ok.injEq, Prod.mk.injEq] at hr
        obtain ⟨rfl, rfl⟩ := hr
        simp only [rxItem]
        rw [replies_same]
        exact ⟨⟨hcl, hx.given hb, by rw [hp]; exact ⟨rfl, hd⟩, by rw [hp]; simp⟩, rfl,
          hs.congr (by simp [ServerView.observe]) rfl rfl, hp, hx.take hb rfl rfl rfl, rfl⟩
      · simp only [hq, Except.ok.injEq, Prod.mk.injEq] at hr
        obtain ⟨rfl, rfl⟩ := hr
        exact ⟨⟨hcl, by rw [hp, ServerView.unread_eq hx.2.2]; exact ⟨hu, hlen⟩, by rw [hp]; simp⟩, rfl,
          hs.congr rfl rfl rfl, hp, hx2, hl⟩
  | idleDone st =>
    obtain ⟨hp, hx, hl⟩ := hrx
    have hout := receiveServerLine_outcome (F := idleFraming L so) (fun _ => rfl) hx.1
    have e1 : (idleFraming L so).dec = L.decodeIdleDone := rfl
    rw [e1] at hout
    simp only at hr
    cases hq : receiveServerLine L.decodeIdleDone st with
    | error p => simp [hq] at hr
    | ok x =>
      obtain ⟨st2, r2⟩ := x
      rw [hq] at hout
      rcases Server.line_inv hx hout with ⟨w, rest, m, rfl, hb, hm, hlen, rfl⟩ | ⟨e, rest, rfl, hb, hd, rfl⟩ |
        ⟨rfl, hu, hlen, hx2⟩
      · simp only [hq, ServerReceiveState.changeState, Except.ok.injEq, Prod.mk.injEq] at hr
        obtain ⟨rfl, rfl⟩ := hr
        simp only [rxItem]
        rw [consumed_eq (s := ⟨so, g, snd, .idleDone st⟩) (w := w) (rest := rest) hb rfl]
        exact ⟨⟨hcl, hx.given hb, hlen, by rw [hp]; exact ⟨hm, rfl⟩, by rw [hp]; simp⟩, rfl,
          hs.congr rfl rfl rfl, rfl, hx.take hb rfl rfl rfl, LitOk.fresh⟩
      · simp only [hq, Except.ok.injEq, Prod.mk.injEq] at hr
        obtain ⟨rfl, rfl⟩ := hr
        simp only [rxItem]
        rw [replies_same]
        exact ⟨⟨hcl, hx.given hb, by rw [hp]; exact ⟨rfl, hd⟩, by rw [hp]; simp⟩, rfl,
          hs.congr (by simp [ServerView.observe]) rfl rfl, hp, hx.take hb rfl rfl rfl, rfl⟩
      · simp only [hq, Except.ok.injEq, Prod.mk.injEq] at hr
        obtain ⟨rfl, rfl⟩ := hr
        exact ⟨⟨hcl, by rw [hp, ServerView.unread_eq hx.2.2]; exact ⟨hu, hlen⟩, by rw [hp]; simp⟩, rfl,
          hs.congr rfl rfl rfl, hp, hx2, hl⟩
  | command st =>
    obtain ⟨hp, hx, hl⟩ := hrx
    have hout := next_outcome hx.1
    have e1 : (commandFraming L so).dec = L.decodeCommand := rfl
    rw [e1] at hout
    simp only at hr
    generalize st.next L.decodeCommand = out at hr hout
    cases hout with
    | assertFailed => cases hr
    | @message n p l m ha hc hd =>
      have hall := hl.all ha (fun _ e he => by rw [hd] at he; cases he)
      have hmsg : IsMessage (commandFraming L so) (p ++ l) m := ⟨p, l, rfl, ha.announced, ha.line, hc, hd⟩
      simp only [commandDecoded] at hr
      rw [finishMessage_eq (s := st.atLine n) ha.le] at hr
      have key : ∀ rcv' ev, m.event = ev →
          (v.observe (.received (p ++ l) ev)).ReceiveInv L so rcv' →
          (∀ st', rcv' = .command st' ∨ rcv' = .authenticateData st' ∨ rcv' = .idleAccept st' →
            st'.readBuffer = st.readBuffer.drop n) →
          (∃ st', rcv' = .command st' ∨ rcv' = .authenticateData st' ∨ rcv' = .idleAccept st') →
          s2 = ⟨so, g, snd, rcv'⟩ → r = .ok (some ev) →
          Guard L so v (rxItem ⟨so, g, snd, .command st⟩ s2 r) ∧
            s2.Inv L so (v.observe (rxItem ⟨so, g, snd, .command st⟩ s2 r)) := by
        intro rcv' ev hev hinv hbuf hex hs2 hr2
        subst hs2 hr2
        simp only [rxItem]
        have hb2 : Server.buffer ⟨so, g, snd, rcv'⟩ = st.readBuffer.drop n := by
          obtain ⟨st', hst'⟩ := hex
          have := hbuf st' hst'
          rcases hst' with rfl | rfl | rfl <;> exact this
        rw [consumed_eq (s := ⟨so, g, snd, .command st⟩) (w := p ++ l) (rest := st.readBuffer.drop n) ha.buffer hb2]
        exact ⟨⟨hcl, hx.given ha.buffer, hx.length_le ha, by rw [hp]; exact ⟨m, hmsg, hev.symm⟩,
          fun _ => hall⟩, rfl, hs.congr rfl rfl rfl, hinv⟩
      obtain ⟨tag, body⟩ := m
      cases body with
      | other b =>
        simp only [Except.ok.injEq, Prod.mk.injEq] at hr
        refine key _ _ rfl ?_ ?_ ⟨_, .inl rfl⟩ hr.1.symm hr.2.symm
        · exact ⟨hp, hx.take ha.buffer rfl rfl rfl, LitOk.fresh⟩
        · rintro st' (h | h | h) <;> cases h
          rfl
      | authenticate mech ir =>
        simp only [ServerReceiveState.changeState, Except.ok.injEq, Prod.mk.injEq] at hr
        refine key _ _ rfl ?_ ?_ ⟨_, .inr (.inl rfl)⟩ hr.1.symm hr.2.symm
        · exact ⟨rfl, hx.take ha.buffer rfl rfl rfl, rfl⟩
        · rintro st' (h | h | h) <;> cases h
          rfl
      | idle =>
        simp only [ServerReceiveState.changeState, Except.ok.injEq, Prod.mk.injEq] at hr
        refine key _ _ rfl ?_ ?_ ⟨_, .inr (.inr rfl)⟩ hr.1.symm hr.2.symm
        · have := hx.take (G := commandFraming L so) (v' := v.observe (.received (p ++ l) (.idleCommandReceived tag)))
            ha.buffer rfl rfl rfl
          exact ⟨rfl, this.1.1, this.2.1, this.2.2, rfl⟩
        · rintro st' (h | h | h) <;> cases h
          rfl
    | @badLine n p l ha hc =>
      simp only at hr
      rw [discardCommand_eq (st := st.atLine n) ha.le] at hr
      simp only [Except.ok.injEq, Prod.mk.injEq] at hr
      obtain ⟨rfl, rfl⟩ := hr
      simp only [rxItem]
      rw [replies_same]
      have ht : (st.atLine n).readBuffer.take (st.atLine n).seenBytes = p ++ l := ha.take_eq
      rw [ht]
      exact ⟨⟨hcl, hx.given ha.buffer, by
          rw [hp]; exact ⟨rfl, ⟨p, l, rfl, ha.announced, ha.line, hc⟩, hx.length_le ha⟩,
          fun _ => hl.all ha fun h => (hc h).elim⟩, rfl,
        hs.congr (by simp [ServerView.observe]) rfl rfl, hp, hx.take ha.buffer rfl rfl rfl, LitOk.fresh⟩
    | @tooLong st1 hm h1 h2 h3 h4 hu hno =>
      simp only at hr
      have hle := st.maxReadableBytes_le
      rw [discardCommand_eq (by rw [h3, h4]; exact hle), h1, h2, h3, h4] at hr
      simp only [Except.ok.injEq, Prod.mk.injEq] at hr
      obtain ⟨rfl, rfl⟩ := hr
      simp only [rxItem]
      rw [replies_same]
      have hb : st.readBuffer = st.readBuffer.take st.maxReadableBytes ++ st.readBuffer.drop st.maxReadableBytes :=
        (List.take_append_drop ..).symm
      have hlen : (st.readBuffer.take st.maxReadableBytes).length = so.maxCommandSize := by
        rw [hx.2.1] at hm
        simp only [Option.some.injEq] at hm
        rw [List.length_take, Nat.min_eq_left hle, hm]
      have hall := hl.unfinished (List.take_prefix _ _) (by
        rw [List.length_take, Nat.min_eq_left hle]; exact hx.1.2.1) hno
      exact ⟨⟨hcl, hx.given hb, by rw [hp]; exact ⟨rfl, hu, hlen⟩, fun _ => hall⟩, rfl,
        hs.congr (by simp [ServerView.observe]) rfl rfl, hp, hx.take hb rfl rfl rfl, LitOk.fresh⟩
    | @needMore st1 hm h2 h3 h4 hu h5 h6 h7 =>
      simp only [Except.ok.injEq, Prod.mk.injEq] at hr
      obtain ⟨rfl, rfl⟩ := hr
      have hall := hl.unfinished (List.prefix_refl _) (Nat.le_trans hx.1.2.1 st.maxReadableBytes_le) h7
      exact ⟨⟨hcl, by rw [hp, ServerView.unread_eq hx.2.2]; exact ⟨hu, max_of_needMore hm hx.2.1⟩,
          by rw [ServerView.unread_eq hx.2.2]; exact fun _ => hall⟩, rfl,
          hs.congr rfl rfl rfl, hp, ⟨h4, by rw [h2]; exact hx.2.1, by rw [h3]; exact hx.2.2⟩, hl.congr h3 h5 h6⟩
    | @failure n p l e ha hc hd =>
      have ht : (st.atLine n).readBuffer.take (st.atLine n).seenBytes = p ++ l := ha.take_eq
      have hund : (commandFraming L so).lit e = none → IsUndecodable (commandFraming L so) (p ++ l) e :=
        fun he => ⟨p, l, rfl, ha.announced, ha.line, hc, hd, he⟩
      have hall : (commandFraming L so).lit e = none →
          AllAnnouncements (commandFraming L so) (p ++ l) v.literals :=
        fun he => hl.all ha fun _ e' he' => by
          rw [hd] at he'; cases he'; exact he
      cases e with
      | incomplete =>
        simp only at hr
        rw [discardCommand_eq (st := st.atLine n) ha.le] at hr
        simp only [Except.ok.injEq, Prod.mk.injEq] at hr
        obtain ⟨rfl, rfl⟩ := hr
        simp only [rxItem]
        rw [replies_same, ht]
        exact ⟨⟨hcl, hx.given ha.buffer, by
            rw [hp]; exact ⟨rfl, hx.length_le ha, _, hund rfl, by simp⟩, fun _ => hall rfl⟩, rfl,
          hs.congr (by simp [ServerView.observe]) rfl rfl, hp, hx.take ha.buffer rfl rfl rfl, LitOk.fresh⟩
      | failed =>
        simp only at hr
        rw [discardCommand_eq (st := st.atLine n) ha.le] at hr
        simp only [Except.ok.injEq, Prod.mk.injEq] at hr
        obtain ⟨rfl, rfl⟩ := hr
        simp only [rxItem]
        rw [replies_same, ht]
        exact ⟨⟨hcl, hx.given ha.buffer, by
            rw [hp]; exact ⟨rfl, hx.length_le ha, _, hund rfl, by simp⟩, fun _ => hall rfl⟩, rfl,
          hs.congr (by simp [ServerView.observe]) rfl rfl, hp, hx.take ha.buffer rfl rfl rfl, LitOk.fresh⟩
      | literalFound tag k mode =>
        simp only [literalFound] at hr
        by_cases hk : k > so.maxLiteralSize
        · simp only [hk, if_true] at hr
          have hnone : (commandFraming L so).lit (.literalFound tag k mode) = none := by
            simp only [commandFraming, CommandDecodeError.acceptable]
            rw [if_neg (by omega)]
          rw [discardMessage_eq (s := st.atLine n) ha.le, ht] at hr
          cases mode with
          | nonSync =>
            simp only [Except.ok.injEq, Prod.mk.injEq] at hr
            obtain ⟨rfl, rfl⟩ := hr
            simp only [rxItem]
            rw [replies_same]
            exact ⟨⟨hcl, hx.given ha.buffer, by
                rw [hp]; exact ⟨hx.length_le ha, tag, k, .nonSync, hund hnone, hk, rfl⟩, fun _ => hall hnone⟩, rfl,
              hs.congr (by simp [ServerView.observe]) rfl rfl, hp, hx.take ha.buffer rfl rfl rfl, LitOk.fresh⟩
          | sync =>
            simp only at hr
            cases hlt : so.literalRejectText with
            | error p => simp [hlt] at hr
            | ok text =>
              simp only [hlt, Except.ok.injEq, Prod.mk.injEq] at hr
              obtain ⟨rfl, rfl⟩ := hr
              simp only [rxItem]
              rw [replies_enqueue]
              exact ⟨⟨hcl, hx.given ha.buffer, by
                  rw [hp]
                  exact ⟨hx.length_le ha, tag, k, .sync, hund hnone, hk, by simp [rejectReply, hlt]⟩,
                    fun _ => hall hnone⟩, rfl,
                hs.enqueue rfl rfl rfl, hp, hx.take ha.buffer rfl rfl rfl, LitOk.fresh⟩
        · simp only [hk, if_false] at hr
          have hsome : (commandFraming L so).lit (.literalFound tag k mode) = some k := by
            simp only [commandFraming, CommandDecodeError.acceptable]
            rw [if_pos (by omega)]
          have hann : Announces (commandFraming L so) (p ++ l) k :=
            ⟨p, l, _, rfl, ha.announced, ha.line, hc, hd, hsome⟩
          have hlt' : ∀ q ∈ v.literals, q.length < (p ++ l).length := by
            intro q hq
            have := (hl.2.1 q hq).2.1
            have h3 := List.length_pos_iff.mpr ha.line.ne_nil
            have hsr := seen_le_resumeAt st
            rw [← ha.start] at hsr
            simp only [List.length_append]
            omega
          have hrd : (v.observe (.literal (p ++ l) (acceptReply L so mode))).RxInv (commandFraming L so) so
              ((st.atLine n).startLiteral k) := ⟨ha.reading hx.1.1 hc hd hsome, hx.2.1, hx.2.2⟩
          have hseen : ∀ o g snd, Server.seen ⟨o, g, snd, .command ((st.atLine n).startLiteral k)⟩ = p ++ l :=
            fun _ _ _ => ht
          cases mode with
          | nonSync =>
            simp only [Except.ok.injEq, Prod.mk.injEq] at hr
            obtain ⟨rfl, rfl⟩ := hr
            simp only [rxItem]
            rw [replies_same, hseen]
            exact ⟨⟨hcl, hx.given ha.buffer, hx.length_le ha, hp, hlt', tag, k, .nonSync, hann, hd, rfl⟩, rfl,
              hs.congr (by simp [ServerView.observe]) rfl rfl, hp, hrd, hl.literal ha hc hd hsome⟩
          | sync =>
            simp only at hr
            cases htx : so.literalAcceptText with
            | error p => simp [htx] at hr
            | ok text =>
              simp only [htx] at hr
              cases hcc : L.ccrBasicFromText none text with
              | none => simp [hcc] at hr
              | some cont =>
                simp only [hcc, Except.ok.injEq, Prod.mk.injEq] at hr
                obtain ⟨rfl, rfl⟩ := hr
                simp only [rxItem]
                rw [hseen]
                rw [replies_enqueue]
                exact ⟨⟨hcl, hx.given ha.buffer, hx.length_le ha, hp, hlt', tag, k, .sync, hann, hd, by
                    simp [acceptReply, htx, hcc]⟩, rfl,
                  hs.enqueue rfl rfl rfl, hp, hrd, hl.literal ha hc hd hsome⟩

/-! ## Steps -/

theorem ServerView.SendInv.enqueueUser {L : Lib} {v v' : ServerView} {s : ServerSendState} (h : v.SendInv L s)
    {hd : RawHandle} {r : Response} (h1 : v'.messages = v.messages ++ [.response (some hd) r])
    (h2 : v'.outputs = v.outputs) (h3 : v'.finished = v.finished) :
    v'.SendInv L (s.enqueueResponse (some hd) r) := h.enqueue h1 h2 h3

theorem ServerView.ReceiveInv.congr {L : Lib} {o : ServerOptions} {v v' : ServerView} {r : ServerReceiveState}
    (h : v.ReceiveInv L o r) (h1 : v'.given = v.given) (h2 : v'.consumed = v.consumed)
    (h3 : v'.phase = v.phase) (h4 : v'.literals = v.literals) : v'.ReceiveInv L o r := by
  cases r with
  | dummy => exact h.elim
  | _ => simpa [ReceiveInv, RxInv, h1, h2, h3, h4] using h

theorem ServerView.RxInv.changeCodec {F : Framing ε μ} {ε' μ' : Type} {G : Framing ε' μ'} {o : ServerOptions}
    {v v' : ServerView} {st : ReceiveState} (h : v.RxInv F o st) (hg : v'.given = v.given)
    (hc : v'.consumed = v.consumed) (hF : F.relaxed = G.relaxed) : v'.RxInv G o st.changeCodec := by
  obtain ⟨h1, h2, h3⟩ := h
  refine ⟨?_, h2, ?_⟩
  · show Reading G (withReadBuffer st.crlfRelaxed st.maxMessageSize st.readBuffer)
    rw [h1.1, hF]; exact reading_fresh
  · rw [hg, hc]; exact h3

theorem Server.step_inv {L : Lib} {o : ServerOptions} {v : ServerView} {s s1 : Server} {i : SItem}
    (h : s.Inv L o v) (hs : Step L s v.quiet i s1) : Guard L o v i ∧ s1.Inv L o (v.observe i) := by
  cases hs with
  | enqueue he =>
    obtain ⟨so, g, snd, rcv⟩ := s
    obtain ⟨ho, h1, h2⟩ := h
    simp only [enqueueResponse, Prod.mk.injEq] at he
    obtain ⟨rfl, rfl⟩ := he
    exact ⟨trivial, ho, h1.enqueueUser rfl rfl rfl, h2.congr rfl rfl rfl rfl⟩
  | @authContinue _ _ d r he =>
    obtain ⟨so, g, snd, rcv⟩ := s
    obtain ⟨ho, h1, h2⟩ := h
    simp only at ho h1 h2
    unfold authenticateContinue at he
    cases rcv with
    | authenticateData st =>
      simp only [enqueueContinuationRequest, enqueueResponse, Prod.mk.injEq] at he
      obtain ⟨rfl, rfl⟩ := he
      exact ⟨.inl ⟨h2.1, _, rfl⟩, ho, h1.enqueueUser rfl rfl rfl, h2.congr rfl rfl rfl rfl⟩
    | dummy => exact h2.elim
    | _ =>
      simp only [Prod.mk.injEq] at he
      obtain ⟨rfl, rfl⟩ := he
      exact ⟨.inr ⟨by rw [h2.1]; simp, rfl⟩, ho, h1.congr rfl rfl rfl, h2.congr rfl rfl rfl rfl⟩
  | @authFinish _ _ d r he =>
    obtain ⟨so, g, snd, rcv⟩ := s
    obtain ⟨ho, h1, h2⟩ := h
    simp only at ho h1 h2
    unfold authenticateFinish at he
    cases rcv with
    | authenticateData st =>
      simp only [enqueueStatus, enqueueResponse, ServerReceiveState.changeState, Except.ok.injEq,
        Prod.mk.injEq] at he
      obtain ⟨rfl, rfl⟩ := he
      exact ⟨.inl ⟨h2.1, _, rfl⟩, ho, h1.enqueueUser rfl rfl rfl, rfl, h2.2.1.changeCodec rfl rfl rfl, LitOk.fresh⟩
    | dummy => exact h2.elim
    | _ =>
      simp only [Except.ok.injEq, Prod.mk.injEq] at he
      obtain ⟨rfl, rfl⟩ := he
      exact ⟨.inr ⟨by rw [h2.1]; simp, rfl⟩, ho, h1.congr rfl rfl rfl, h2.congr rfl rfl rfl rfl⟩
  | @idleAccept _ _ d r he =>
    obtain ⟨so, g, snd, rcv⟩ := s
    obtain ⟨ho, h1, h2⟩ := h
    simp only at ho h1 h2
    unfold Server.idleAccept at he
    cases rcv with
    | idleAccept st =>
      simp only [enqueueContinuationRequest, enqueueResponse, ServerReceiveState.changeState, Except.ok.injEq,
        Prod.mk.injEq] at he
      obtain ⟨rfl, rfl⟩ := he
      obtain ⟨h2, h3, h4, h5, -⟩ := h2
      refine ⟨.inl ⟨h2, _, rfl⟩, ho, h1.enqueueUser rfl rfl rfl, rfl, ⟨?_, h4, h5⟩, rfl⟩
      show Reading _ (withReadBuffer st.crlfRelaxed st.maxMessageSize st.readBuffer)
      rw [h3]
      exact reading_fresh (F := idleFraming L o)
    | dummy => exact h2.elim
    | _ =>
      simp only [Except.ok.injEq, Prod.mk.injEq] at he
      obtain ⟨rfl, rfl⟩ := he
      exact ⟨.inr ⟨by rw [h2.1]; simp, rfl⟩, ho, h1.congr rfl rfl rfl, h2.congr rfl rfl rfl rfl⟩
  | @idleReject _ _ d r he =>
    obtain ⟨so, g, snd, rcv⟩ := s
    obtain ⟨ho, h1, h2⟩ := h
    simp only at ho h1 h2
    unfold Server.idleReject at he
    cases rcv with
    | idleAccept st =>
      simp only [enqueueStatus, enqueueResponse, ServerReceiveState.changeState, Except.ok.injEq,
        Prod.mk.injEq] at he
      obtain ⟨rfl, rfl⟩ := he
      obtain ⟨h2, h3, h4, h5, -⟩ := h2
      refine ⟨.inl ⟨h2, _, rfl⟩, ho, h1.enqueueUser rfl rfl rfl, rfl, ⟨?_, h4, h5⟩, LitOk.fresh⟩
      show Reading _ (withReadBuffer st.crlfRelaxed st.maxMessageSize st.readBuffer)
      rw [h3]
      exact reading_fresh (F := commandFraming L o)
    | dummy => exact h2.elim
    | _ =>
      simp only [Except.ok.injEq, Prod.mk.injEq] at he
      obtain ⟨rfl, rfl⟩ := he
      exact ⟨.inr ⟨by rw [h2.1]; simp, rfl⟩, ho, h1.congr rfl rfl rfl, h2.congr rfl rfl rfl rfl⟩
  | @input _ _ b he =>
    obtain ⟨so, g, snd, rcv⟩ := s
    obtain ⟨ho, h1, h2⟩ := h
    simp only at ho h1 h2
    unfold Server.enqueueInput at he
    cases rcv with
    | dummy => exact h2.elim
    | idleAccept st =>
      simp only [Except.ok.injEq] at he
      subst he
      obtain ⟨h2, h3, h4, h5, h6⟩ := h2
      refine ⟨trivial, ho, h1.congr rfl rfl rfl, h2, h3, h4, ?_, h6⟩
      show v.given ++ b = v.consumed ++ (st.readBuffer ++ b)
      rw [h5, List.append_assoc]
    | command st =>
      simp only [Except.ok.injEq] at he
      subst he
      obtain ⟨h2, ⟨h3, h4, h5⟩, h6⟩ := h2
      refine ⟨trivial, ho, h1.congr rfl rfl rfl, h2, ⟨h3.enqueue b, h4, ?_⟩, h6.enqueue b⟩
      show v.given ++ b = v.consumed ++ (st.readBuffer ++ b)
      rw [h5, List.append_assoc]
    | _ st =>
      simp only [Except.ok.injEq] at he
      subst he
      obtain ⟨h2, ⟨h3, h4, h5⟩, h6⟩ := h2
      refine ⟨trivial, ho, h1.congr rfl rfl rfl, h2, ⟨h3.enqueue b, h4, ?_⟩, h6⟩
      show v.given ++ b = v.consumed ++ (st.readBuffer ++ b)
      rw [h5, List.append_assoc]
  | output he =>
    obtain ⟨ho, ⟨a, b, c, d⟩, h2⟩ := h
    rcases progressSend_cases he with ⟨m, q, hc, hq, hr, rfl⟩ | ⟨hc, hq, hr, he⟩ | ⟨m, hc, hr, he⟩
    · simp only [Except.error.injEq, Interrupt.io.injEq, Io.output.injEq] at hr
      subst hr
      rw [hc] at d
      rw [hq] at a
      have hm : v.messages[v.outputs.length]? = some m := by
        have := congrArg List.head? a
        rw [List.head?_drop] at this
        exact this.symm
      have hlt : v.outputs.length < v.messages.length := (List.getElem?_eq_some_iff.mp hm).1
      refine ⟨⟨d, m, hm, rfl⟩, ho, ⟨?_, ?_, ?_, ?_⟩, h2.congr rfl rfl rfl rfl⟩
      · show q = v.messages.drop (v.outputs ++ [m.bytes L]).length
        have := congrArg List.tail a
        rw [List.tail_drop] at this
        simpa using this
      · show (v.outputs ++ [m.bytes L]).length ≤ v.messages.length
        simp only [List.length_append, List.length_singleton]; omega
      · show v.outputs ++ [m.bytes L] = (v.messages.take (v.outputs ++ [m.bytes L]).length).map _
        rw [List.length_append, List.length_singleton, List.take_add_one, hm, List.map_append, ← c]
        rfl
      · show (v.outputs ++ [m.bytes L]).length = v.finished + 1 ∧ v.messages[v.finished]? = some m
        rw [d]
        exact ⟨by simp, hm⟩
    · cases hr
    · cases hr
  | sent he =>
    obtain ⟨ho, ⟨a, b, c, d⟩, h2⟩ := h
    rcases progressSend_cases he with ⟨m, q, hc, hq, hr, rfl⟩ | ⟨hc, hq, hr, he⟩ | ⟨m, hc, hr, rfl⟩
    · cases hr
    · cases hr
    · rw [hc] at d
      simp only [Except.ok.injEq] at hr
      refine ⟨⟨d.1, m, d.2, hr.symm⟩, ho, ⟨a, b, c, ?_⟩, h2.congr rfl rfl rfl rfl⟩
      exact d.1.symm
  | quiet he hcur =>
    obtain ⟨ho, ⟨a, b, c, d⟩, h2⟩ := h
    rcases progressSend_cases he with ⟨m, q, hc, hq, hr, rfl⟩ | ⟨hc, hq, hr, he⟩ | ⟨m, hc, hr, rfl⟩
    · cases hr
    · rw [hc] at hcur; cases hcur
    · rw [hc] at d
      simp only [Except.ok.injEq] at hr
      refine ⟨⟨d.1, m, d.2, hr.symm⟩, ho, ⟨a, b, c, ?_⟩, h2.congr rfl rfl rfl rfl⟩
      exact d.1.symm
  | outputRecv hc he =>
    exfalso
    obtain ⟨so, g, snd, rcv⟩ := s
    have hcl := h.2.1.clear hc
    have := (progressReceive_inv h hcl he).1
    obtain ⟨ho, ⟨a, b, c, d⟩, h2⟩ := h
    simp only [rxItem] at this
    -- `progress_receive` has no output
    simp only at ho h2
    unfold progressReceive at he
    cases rcv with
    | dummy => exact h2.elim
    | idleAccept st => simp at he
    | authenticateData st =>
      simp only at he
      cases hq : receiveServerLine L.decodeAuthenticateData st with
      | error p => simp [hq] at he
      | ok x =>
        obtain ⟨st2, r2⟩ := x
        have hout := receiveServerLine_outcome (F := authenticateFraming L o) (fun _ => rfl) h2.2.1.1
        have e1 : (authenticateFraming L o).dec = L.decodeAuthenticateData := rfl
        rw [e1, hq] at hout
        rcases Server.line_inv h2.2.1 hout with ⟨w, rest, m, rfl, -⟩ | ⟨e, rest, rfl, -⟩ | ⟨rfl, -⟩ <;>
          simp [hq] at he
    | idleDone st =>
      simp only at he
      cases hq : receiveServerLine L.decodeIdleDone st with
      | error p => simp [hq] at he
      | ok x =>
        obtain ⟨st2, r2⟩ := x
        have hout := receiveServerLine_outcome (F := idleFraming L o) (fun _ => rfl) h2.2.1.1
        have e1 : (idleFraming L o).dec = L.decodeIdleDone := rfl
        rw [e1, hq] at hout
        rcases Server.line_inv h2.2.1 hout with ⟨w, rest, m, rfl, -⟩ | ⟨e, rest, rfl, -⟩ | ⟨rfl, -⟩ <;>
          simp [hq, ServerReceiveState.changeState] at he
    | command st =>
      have hout := next_outcome h2.2.1.1
      have e1 : (commandFraming L o).dec = L.decodeCommand := rfl
      rw [e1] at hout
      simp only at he
      generalize st.next L.decodeCommand = out at he hout
      cases hout with
      | assertFailed => cases he
      | @message n p l m ha hc hd =>
        simp only [commandDecoded] at he
        rw [finishMessage_eq (s := st.atLine n) ha.le] at he
        obtain ⟨tag, body⟩ := m
        cases body <;> simp [ServerReceiveState.changeState] at he
      | @badLine n p l ha hc =>
        simp only at he
        rw [discardCommand_eq (st := st.atLine n) ha.le] at he
        simp at he
      | @tooLong st1 hm h1 h2 h3 h4 hu hno =>
        simp only at he
        have hle := st.maxReadableBytes_le
        rw [discardCommand_eq (by rw [h3, h4]; exact hle)] at he
        simp at he
      | @needMore st1 => simp at he
      | @failure n p l e ha hc hd =>
        cases e with
        | incomplete => simp only at he; rw [discardCommand_eq (st := st.atLine n) ha.le] at he; simp at he
        | failed => simp only at he; rw [discardCommand_eq (st := st.atLine n) ha.le] at he; simp at he
        | literalFound tag k mode =>
          simp only [literalFound] at he
          split at he
          · rw [discardMessage_eq (s := st.atLine n) ha.le] at he
            split at he
            · split at he <;> simp at he
            · simp at he
          · split at he
            · split at he
              · simp at he
              · split at he <;> simp at he
            · simp at he
  | starved hc he => exact progressReceive_inv h (h.2.1.clear hc) he
  | failed hc he => exact progressReceive_inv h (h.2.1.clear hc) he
  | received hc he => exact progressReceive_inv h (h.2.1.clear hc) he
  | literal hc he => exact progressReceive_inv h (h.2.1.clear hc) he

theorem ServerView.observe_quiet (v : ServerView) (i : SItem) : (v.observe i).quiet = (i == .quiet) := by
  cases i with
  | authContinue q r => cases r <;> rfl
  | authFinish q r => cases r <;> rfl
  | idleAccept q r => cases r <;> rfl
  | idleReject q r => cases r <;> rfl
  | _ => rfl

theorem Server.new_inv (L : Lib) (g : HandleGenerator) (o : ServerOptions) (greeting : Greeting) :
    (Server.new g o greeting).Inv L o (ServerView.start greeting) :=
  ⟨rfl, ⟨rfl, Nat.zero_le _, rfl, rfl⟩, rfl,
    ⟨reading_fresh (F := commandFraming L o), rfl, rfl⟩, LitOk.fresh⟩

theorem Server.steps_inv {L : Lib} {o : ServerOptions} {v : ServerView} {s s1 : Server}
    {T : List SItem} (h : s.Inv L o v) (hs : Steps L s v.quiet T s1) :
    s1.Inv L o (T.foldl ServerView.observe v) := by
  generalize hq : v.quiet = q at hs
  induction hs generalizing v with
  | nil => exact h
  | cons a _ ih =>
    subst hq
    exact ih (step_inv h a).2 (ServerView.observe_quiet _ _)

theorem Server.steps_guard {L : Lib} {o : ServerOptions} {v : ServerView} {s s1 : Server}
    {T1 T2 : List SItem} {i : SItem} (h : s.Inv L o v) (hs : Steps L s v.quiet (T1 ++ i :: T2) s1) :
    Guard L o (T1.foldl ServerView.observe v) i ∧
      ∃ s2 : Server, s2.Inv L o (T1.foldl ServerView.observe v) := by
  induction T1 generalizing s v with
  | nil =>
    cases hs with
    | cons a _ => exact ⟨(step_inv h a).1, _, h⟩
  | cons j T1 ih =>
    cases hs with
    | cons a b =>
      refine ih (step_inv h a).2 ?_
      rw [ServerView.observe_quiet]
      exact b

/-- The invariant holds after every trace. -/
theorem Server.trace_inv {L : Lib} {g : HandleGenerator} {o : ServerOptions} {gr : Greeting}
    {ops : List ServerOp} {s : Server} {T : List SItem}
    (h : (Server.new g o gr).trace L ops = .ok (s, T)) : s.Inv L o (ServerView.of gr T) :=
  steps_inv (new_inv L g o gr) (trace_steps h _)

/-- Every item of every trace satisfies its guard. -/
theorem Server.trace_guard {L : Lib} {g : HandleGenerator} {o : ServerOptions} {gr : Greeting}
    {ops : List ServerOp} {s : Server} {T1 T2 : List SItem} {i : SItem}
    (h : (Server.new g o gr).trace L ops = .ok (s, T1 ++ i :: T2)) :
    Guard L o (ServerView.of gr T1) i :=
  (steps_guard (new_inv L g o gr) (trace_steps h _)).1

/-- The invariant holds at every point of a trace. -/
theorem Server.prefix_inv {L : Lib} {g : HandleGenerator} {o : ServerOptions} {gr : Greeting}
    {ops : List ServerOp} {s : Server} {T1 T2 : List SItem}
    (h : (Server.new g o gr).trace L ops = .ok (s, T1 ++ T2)) :
    ∃ s1 : Server, s1.Inv L o (ServerView.of gr T1) := by
  cases T2 with
  | nil => exact ⟨s, trace_inv (by simpa using h)⟩
  | cons i T2 => exact (steps_guard (new_inv L g o gr) (trace_steps h _)).2

end ImapFlow

import Verif.Proofs.SessionLive

/-!
# Two example programs that suit each other come to rest
-/

namespace ImapFlow

variable {K : Type} {L : Lib} {gc gs : HandleGenerator} {os : ServerOptions} {gr : Greeting}

/-! ## The calls and events that the record contains -/

/-- The call if it is one of the user. -/
def ClientOp.mine? : ClientOp → Option ClientOp
  | .next => none
  | .enqueueInput _ => none
  | op => some op

/-- The call if it is one of the user. -/
def ServerOp.mine? : ServerOp → Option ServerOp
  | .next => none
  | .enqueueInput _ => none
  | op => some op

theorem Client.nextTrace_ops {c c' : Client} {U : List CItem} (h : c.nextTrace L = .ok (c', U)) : U.filterMap CItem.op? = [] := by
  fun_induction Client.nextTrace L c generalizing c' U <;> cases h <;> first | rfl | skip
  rename_i h1 ih
  simpa [CItem.op?] using ih h1

theorem Server.nextTrace_ops {s s' : Server} {U : List SItem} (h : s.nextTrace L = .ok (s', U)) : U.filterMap SItem.op? = [] := by
  have q : ∀ s : Server, (Server.quietItems s).filterMap SItem.op? = [] := by
    intro s; unfold Server.quietItems; split <;> rfl
  fun_induction Server.nextTrace L s generalizing s' U <;> cases h <;> first | rfl | (simp [q, SItem.op?]; done) | skip
  rename_i h1 ih
  simpa [SItem.op?, q] using ih h1

theorem Client.callTrace_ops {c c' : Client} {op : ClientOp} {U : List CItem} (h : c.callTrace L op = .ok (c', U)) :
    U.filterMap CItem.op? = op.mine?.toList := by
  cases op <;> simp only [Client.callTrace, Except.map] at h <;>
    first
    | exact Client.nextTrace_ops h
    | (cases h; rfl)
    | (split at h <;> cases h; rfl)

theorem Server.callTrace_ops {s s' : Server} {op : ServerOp} {U : List SItem} (h : s.callTrace L op = .ok (s', U)) :
    U.filterMap SItem.op? = op.mine?.toList := by
  cases op <;> simp only [Server.callTrace, Except.map] at h <;>
    first
    | exact Server.nextTrace_ops h
    | (cases h; rfl)
    | (split at h <;> cases h; rfl)

/-- The calls of the user of the client in a schedule. -/
def NetOp.clientMine? : NetOp → Option ClientOp
  | .client op => op.mine?
  | _ => none

/-- The calls of the user of the server in a schedule. -/
def NetOp.serverMine? : NetOp → Option ServerOp
  | .server op => op.mine?
  | _ => none

theorem Net.callClient_ops {n n' : Net} {op : ClientOp} {T : List NItem} (h : n.callClient L op = .ok (n', T)) :
    (clientItems T).filterMap CItem.op? = op.mine?.toList ∧ (serverItems T).filterMap SItem.op? = [] := by
  unfold Net.callClient at h
  split at h
  · cases h
  · rename_i c U hc
    cases h
    have e1 : clientItems (U.map .client) = U := by simpa [clientItems] using clientItems_clients [] U
    have e2 : serverItems (U.map .client) = [] := by simpa [serverItems] using serverItems_clients [] U
    rw [e1, e2]
    exact ⟨Client.callTrace_ops hc, rfl⟩

theorem Net.callServer_ops {n n' : Net} {op : ServerOp} {T : List NItem} (h : n.callServer L op = .ok (n', T)) :
    (clientItems T).filterMap CItem.op? = [] ∧ (serverItems T).filterMap SItem.op? = op.mine?.toList := by
  unfold Net.callServer at h
  split at h
  · cases h
  · rename_i c U hc
    cases h
    have e1 : clientItems (U.map .server) = [] := by simpa [clientItems] using clientItems_servers [] U
    have e2 : serverItems (U.map .server) = U := by simpa [serverItems] using serverItems_servers [] U
    rw [e1, e2]
    exact ⟨rfl, Server.callTrace_ops hc⟩

theorem Net.step_ops {n n' : Net} {op : NetOp} {T : List NItem} (h : n.step L op = .ok (n', T)) :
    (clientItems T).filterMap CItem.op? = op.clientMine?.toList ∧
    (serverItems T).filterMap SItem.op? = op.serverMine?.toList := by
  cases op with
  | client op =>
    cases op <;> simp only [Net.step] at h <;> first | exact Net.callClient_ops h | (cases h; exact ⟨rfl, rfl⟩)
  | server op =>
    cases op <;> simp only [Net.step] at h <;> first | exact Net.callServer_ops h | (cases h; exact ⟨rfl, rfl⟩)
  | deliverToClient k => exact Net.callClient_ops h
  | deliverToServer k => exact Net.callServer_ops h

theorem Net.run_ops {n n' : Net} {ops : List NetOp} {T : List NItem} (h : n.run L ops = .ok (n', T)) :
    (clientItems T).filterMap CItem.op? = ops.filterMap NetOp.clientMine? ∧
    (serverItems T).filterMap SItem.op? = ops.filterMap NetOp.serverMine? := by
  induction ops generalizing n T with
  | nil => cases h; exact ⟨rfl, rfl⟩
  | cons op ops ih =>
    simp only [Net.run] at h
    split at h
    · cases h
    · rename_i n1 U h1
      split at h
      · cases h
      · rename_i n2 V h2
        cases h
        obtain ⟨a1, a2⟩ := Net.step_ops h1
        obtain ⟨b1, b2⟩ := ih h2
        unfold clientItems serverItems at *
        simp only [List.filterMap_append, List.filterMap_cons, a1, a2, b1, b2]
        constructor
        · cases op.clientMine? <;> rfl
        · cases op.serverMine? <;> rfl

/-- The user calls neither `next` nor `enqueue_input` of the client or of the server directly. -/
theorem StreamNet.step_mine {sn sn' : StreamNet K} {a : StreamNetAct} {G : List StreamNetItem} (h : sn.step L a = some (sn', G)) :
    (∀ op, .client (.stream (.user op)) ∈ G → op.mine? = some op) ∧ ∀ op, .server (.stream (.user op)) ∈ G → op.mine? = some op := by
  have key : ∀ {σ ε ev ι : Type} {M : Machine σ ε ev ι} {c c' : FullStream K σ} {b : StreamAct ι} {J : List (FullItem ε ev ι)},
      c.step M b = some (c', J) → ∀ op, .stream (.user op) ∈ J → b = .user op := by
    intro σ ε ev ι M c c' b J hx op hm
    have adv : ∀ {c c' : FullStream K σ} {T : List (FullItem ε ev ι)}, FullStream.Advanced M c c' T → .stream (.user op) ∉ T := by
      intro c c' T ha
      have hD : ∀ {b s s1} {D : List (StreamItem ε ev ι)}, Provides M b s s1 D → D = [] ∨ D = [.deliver b] := by
        rintro b s s1 D (⟨-, -, rfl⟩ | ⟨-, -, rfl⟩)
        · exact .inl rfl
        · exact .inr rfl
      cases ha with
      | hung => simp
      | broken => simp
      | inputPanic => simp
      | nextPanic h1 h2 => rcases hD h2 with rfl | rfl <;> simp
      | @returned _ _ _ D _ _ r h1 h2 => rcases hD h2 with rfl | rfl <;> rcases r with (_ | _) | _ <;> simp [returns]
      | waits h1 h2 => rcases hD h2 with rfl | rfl <;> simp
      | refused h1 h2 => rcases hD h2 with rfl | rfl <;> simp
    cases b with
    | user op' =>
      simp only [FullStream.step] at hx
      split at hx
      · split at hx <;> cases hx <;> simp at hm <;> rw [hm]
      · cases hx
    | callFlush =>
      exfalso
      simp only [FullStream.step, FullStream.startFlush] at hx
      split at hx
      · split at hx <;> cases hx <;> simp at hm
      · cases hx
    | _ =>
      exfalso
      have := FullStream.step_cases hx
      cases this with
      | user h1 => simp_all [FullStream.step]
      | userPanic => simp_all [FullStream.step]
      | callNext h1 h2 => exact adv h2 (by simpa using hm)
      | read h1 h2 h3 => exact adv h3 (by simpa using hm)
      | written h1 h2 h3 h4 => exact adv h4 (by simpa using hm)
      | wrote h1 h2 h3 h4 => rcases h4 with ⟨-, rfl, -⟩ | ⟨-, -, rfl, -⟩ <;> simp at hm
      | flush h1 h2 h3 => rcases h3 with ⟨-, rfl, -⟩ | ⟨-, rfl, -⟩ <;> simp at hm
      | ended h1 h2 =>
        rcases h2 with ⟨-, rfl, rfl⟩ | ⟨-, rfl, rfl⟩ | ⟨-, rfl, rfl⟩ | ⟨-, rfl, rfl⟩ | ⟨-, rfl, rfl⟩ <;> simp at hm
      | dropped => simp at hm
  have hc : ∀ (act : SideAct ClientOp), (∀ op, act = .user op → op.mine? = some op) → sn.clientStep L act = some (sn', G) →
      (∀ op, .client (.stream (.user op)) ∈ G → op.mine? = some op) ∧
      ∀ op, .server (.stream (.user op)) ∈ G → op.mine? = some op := by
    intro act ho hx
    unfold StreamNet.clientStep at hx
    split at hx
    · cases hx
    · rename_i c J hj
      cases hx
      refine ⟨fun op hm => ho op ?_, fun op hm => ?_⟩
      · obtain ⟨i, hi, he⟩ := List.mem_map.1 hm
        cases he
        have := key hj op hi
        cases act <;> simp [SideAct.toStream] at this ⊢
        exact this
      · obtain ⟨i, -, he⟩ := List.mem_map.1 hm
        cases he
  have hs : ∀ (act : SideAct ServerOp), (∀ op, act = .user op → op.mine? = some op) → sn.serverStep L act = some (sn', G) →
      (∀ op, .client (.stream (.user op)) ∈ G → op.mine? = some op) ∧
      ∀ op, .server (.stream (.user op)) ∈ G → op.mine? = some op := by
    intro act ho hx
    unfold StreamNet.serverStep at hx
    split at hx
    · cases hx
    · rename_i c J hj
      cases hx
      refine ⟨fun op hm => ?_, fun op hm => ho op ?_⟩
      · obtain ⟨i, -, he⟩ := List.mem_map.1 hm
        cases he
      · obtain ⟨i, hi, he⟩ := List.mem_map.1 hm
        cases he
        have := key hj op hi
        cases act <;> simp [SideAct.toStream] at this ⊢
        exact this
  unfold StreamNet.step at h
  split at h
  · cases h
  · cases h
  · cases h
  · cases h
  · rename_i act h1 h2
    refine hc act (fun op he => ?_) h
    subst he
    cases op <;> first | rfl | exact (h1 rfl).elim | exact (h2 _ rfl).elim
  · rename_i act h1 h2
    refine hs act (fun op he => ?_) h
    subst he
    cases op <;> first | rfl | exact (h1 rfl).elim | exact (h2 _ rfl).elim

theorem StreamNet.run_mine {sn sn' : StreamNet K} {as : List StreamNetAct} {G : List StreamNetItem} (h : sn.run L as = some (sn', G)) :
    (∀ op, .client (.stream (.user op)) ∈ G → op.mine? = some op) ∧ ∀ op, .server (.stream (.user op)) ∈ G → op.mine? = some op := by
  induction as generalizing sn G with
  | nil => cases h; simp
  | cons a as ih =>
    obtain ⟨sn1, G1, G2, h1, h2, rfl⟩ := StreamNet.run_cons h
    obtain ⟨a1, a2⟩ := StreamNet.step_mine h1
    obtain ⟨b1, b2⟩ := ih h2
    constructor
    · intro op hm
      exact (List.mem_append.1 hm).elim (a1 op) (b1 op)
    · intro op hm
      exact (List.mem_append.1 hm).elim (a2 op) (b2 op)

theorem StreamNetItem.mine_calls {G : List StreamNetItem}
    (h : (∀ op, .client (.stream (.user op)) ∈ G → op.mine? = some op) ∧ ∀ op, .server (.stream (.user op)) ∈ G → op.mine? = some op) :
    (G.flatMap StreamNetItem.calls).filterMap NetOp.clientMine? = streamCalls (atClient G) ∧
    (G.flatMap StreamNetItem.calls).filterMap NetOp.serverMine? = streamCalls (atServer G) := by
  obtain ⟨h1, h2⟩ := h
  unfold streamCalls atClient atServer
  rw [List.filterMap_flatMap, List.filterMap_flatMap, List.filterMap_filterMap, List.filterMap_filterMap]
  induction G with
  | nil => exact ⟨rfl, rfl⟩
  | cons x G ih =>
    obtain ⟨i1, i2⟩ := ih (fun op hm => h1 op (List.mem_cons_of_mem _ hm)) (fun op hm => h2 op (List.mem_cons_of_mem _ hm))
    rw [List.flatMap_cons, List.flatMap_cons, i1, i2, List.filterMap_cons, List.filterMap_cons]
    rcases x with (i | _ | _ | _) | (i | _ | _ | _) <;> first | exact ⟨rfl, rfl⟩ | skip
    · cases i <;> first | exact ⟨rfl, rfl⟩ | skip
      rename_i op
      have := h1 op (by simp)
      refine ⟨?_, rfl⟩
      simp [StreamNetItem.calls, NetOp.clientMine?, this, StreamNetItem.client?, StreamItem.call?]
    · cases i <;> first | exact ⟨rfl, rfl⟩ | skip
      rename_i op
      have := h2 op (by simp)
      refine ⟨rfl, ?_⟩
      simp [StreamNetItem.calls, NetOp.serverMine?, this, StreamNetItem.server?, StreamItem.call?]

/-- The calls of both programs are those of the record. -/
theorem Linkage.calls {sn : StreamNet K} {S : List (StreamItem ClientError ClientEvent ClientOp)}
    {S' : List (StreamItem ServerError ServerEvent ServerOp)} {G : List StreamNetItem} {n : Net} {T : List NItem}
    (h : Linkage L gc gs os gr sn S S' G n T) :
    (clientItems T).filterMap CItem.op? = streamCalls S ∧ (serverItems T).filterMap SItem.op? = streamCalls S' := by
  obtain ⟨as, hr⟩ := h.run
  obtain ⟨e1, e2⟩ := StreamNetItem.mine_calls (StreamNet.run_mine hr)
  obtain ⟨f1, f2⟩ := Net.run_ops h.net
  rw [f1, f2, e1, e2, h.client, h.server]
  exact ⟨rfl, rfl⟩

/-- The events that both programs got are those of the record. -/
theorem Linkage.told {sn : StreamNet K} {S : List (StreamItem ClientError ClientEvent ClientOp)}
    {S' : List (StreamItem ServerError ServerEvent ServerOp)} {G : List StreamNetItem} {n : Net} {T : List NItem}
    (h : Linkage L gc gs os gr sn S S' G n T) (hL : L.Lawful) (hO : ServerOptions.Built L os) :
    (clientItems T).filterMap CItem.event? = streamEvents S ∧ (serverItems T).filterMap SItem.event? = streamEvents S' := by
  obtain ⟨as, hr⟩ := h.run
  obtain ⟨-, h3, h4, -⟩ := h.traced hL hO
  obtain ⟨ec, es⟩ := StreamNet.run_events hr
  rw [h.client] at ec
  rw [h.server] at es
  have hce : ∀ i : CItem, i.event? = i.result?.bind Except.toOption := by
    intro i; cases i <;> rfl
  have hse : ∀ i : SItem, i.event? = i.result?.bind Except.toOption := by
    intro i; cases i <;> rfl
  constructor
  · show _ = events S
    rw [ec, ← List.filterMap_filterMap, ← h3.results, List.filterMap_filterMap]
    exact congrArg (List.filterMap · _) (funext hce)
  · show _ = events S'
    rw [es, ← List.filterMap_filterMap, ← h4.results, List.filterMap_filterMap]
    exact congrArg (List.filterMap · _) (funext hse)

/-! ## Progress -/

section
variable {σ τ : Type} {P : Program σ Client ClientEvent ClientOp} {P' : Program τ Server ServerEvent ServerOp}
  {I : σ → List CItem → Prop} {Q : List CItem → Prop} {J : τ → List SItem → Prop} {ok : ServerEvent → Prop}
  {s s' : Session K σ τ} {R R' : List SessionItem} {v : σ} {c : FullStream K Client} {w : τ}
  {d : FullStream K Server} {G : List StreamNetItem} {n : Net} {T : List NItem}

theorem Program.step_some {σ S ε ev ι : Type} {P : Program σ S ev ι} {M : Machine S ε ev ι} {v : σ} {c c' : FullStream K S} {a : IoAct}
    {T : List (FullItem ε ev ι)} (h : c.step M a.toStream = some (c', T)) (coin : Bool) :
    ∃ x, P.step M (.running v c) (.io a coin) = some x := by
  simp only [Program.step, h]
  split
  · exact ⟨_, rfl⟩
  · split <;> exact ⟨_, rfl⟩

/-- As long as the programs do not both wait, one of them can go on. -/
theorem Live.progress (hf : Fitting L gc gs os gr P P' I Q J ok) (h : Live L gc gs os gr I J s R v c w d G n T) (hw : ¬ s.Waits) :
    (∃ act x, s.step L P P' (.client act) = some x) ∨ ∃ act, ∀ coin, ∃ x, s.step L P P' (.server act coin) = some x := by
  obtain ⟨as, hr⟩ := h.link.run
  have hw' : ¬ (⟨c, d, s.toServer, s.toClient⟩ : StreamNet K).Waiting := by
    rintro ⟨h1, h2, h3, h4⟩
    exact hw ⟨h1, h2, ⟨v, c, h.client, h3⟩, w, d, h.server, h4⟩
  obtain ⟨sn', G', a, h1, h2⟩ := C63_progress (paired := fun _ _ => True) hf.lawful hf.built (tc := none) (ts := none) trivial hr h.link.calm hw'
  cases a with
  | client act =>
    left
    have key : ∀ act' : SocketAct, act = act'.toSide → act'.possible s.toClient true = true →
        ∃ act x, s.step L P P' (.client act) = some x := by
      rintro act' rfl hp
      have h3 : ∃ y, (⟨c, d, s.toServer, s.toClient⟩ : StreamNet K).clientStep L act'.toSide = some y := by
        cases act' <;> exact ⟨_, h2⟩
      obtain ⟨y, h3⟩ := h3
      unfold StreamNet.clientStep at h3
      split at h3
      · cases h3
      · rename_i c' D hc
        rw [act'.toSide_toStream] at hc
        obtain ⟨x, hx⟩ := Program.step_some (P := P) (v := v) hc false
        have hsr : s.server.isRunning = true := by rw [h.server]; rfl
        have hp' : act'.possible s.toClient s.server.isRunning = true := by rw [hsr]; exact hp
        have : ∃ x, s.step L P P' (.client act') = some x := by
          simp only [Session.step, hp', if_true]
          unfold Session.clientDoes
          rw [h.client, hx]
          exact ⟨_, rfl⟩
        exact ⟨act', this⟩
    cases act with
    | callNext => exact key .poll rfl rfl
    | read k =>
      refine key (.read k) rfl ?_
      obtain ⟨h3, h4⟩ := h1
      have h4 : s.toClient ≠ [] := h4
      simp [SocketAct.possible, h3, h4]
    | write k =>
      refine key (.write k) rfl ?_
      have h3 : 0 < k := h1
      simp [SocketAct.possible, h3]
    | user op => exact h1.elim
    | callFlush => exact h1.elim
    | fail => exact h1.elim
    | drop => exact h1.elim
  | server act =>
    right
    have key : ∀ act' : SocketAct, act = act'.toSide → act'.possible s.toServer true = true →
        ∃ act, ∀ coin, ∃ x, s.step L P P' (.server act coin) = some x := by
      rintro act' rfl hp
      have h3 : ∃ y, (⟨c, d, s.toServer, s.toClient⟩ : StreamNet K).serverStep L act'.toSide = some y := by
        cases act' <;> exact ⟨_, h2⟩
      obtain ⟨y, h3⟩ := h3
      unfold StreamNet.serverStep at h3
      split at h3
      · cases h3
      · rename_i c' D hc
        rw [act'.toSide_toStream] at hc
        refine ⟨act', fun coin => ?_⟩
        obtain ⟨x, hx⟩ := Program.step_some (P := P') (v := w) hc coin
        have hsr : s.client.isRunning = true := by rw [h.client]; rfl
        have hp' : act'.possible s.toServer s.client.isRunning = true := by rw [hsr]; exact hp
        simp only [Session.step, hp', if_true]
        unfold Session.serverDoes
        rw [h.server, hx]
        exact ⟨_, rfl⟩
    cases act with
    | callNext => exact key .poll rfl rfl
    | read k =>
      refine key (.read k) rfl ?_
      obtain ⟨h3, h4⟩ := h1
      have h4 : s.toServer ≠ [] := h4
      simp [SocketAct.possible, h3, h4]
    | write k =>
      refine key (.write k) rfl ?_
      have h3 : 0 < k := h1
      simp [SocketAct.possible, h3]
    | user op => exact h1.elim
    | callFlush => exact h1.elim
    | fail => exact h1.elim
    | drop => exact h1.elim

/-- If no step is possible both programs wait. -/
theorem Live.still (hf : Fitting L gc gs os gr P P' I Q J ok) (h : Live L gc gs os gr I J s R v c w d G n T)
    (hs : s.Still L P P') : s.Waits := by
  refine Classical.byContradiction fun hw => ?_
  rcases h.progress hf hw with ⟨act, x, hx⟩ | ⟨act, hx⟩
  · rw [hs.1 act] at hx; cases hx
  · obtain ⟨x, hx⟩ := hx true
    rw [hs.2 act true] at hx; cases hx

/-- If both programs wait no step is possible. -/
theorem Session.Waits.still {σ τ : Type} {P : Program σ Client ClientEvent ClientOp} {P' : Program τ Server ServerEvent ServerOp}
    {s : Session K σ τ} (h : s.Waits) : s.Still L P P' := by
  obtain ⟨h1, h2, ⟨v, c, hc, h3⟩, w, d, hd, h4⟩ := h
  have key : ∀ {σ S ε ev ι : Type} {P : Program σ S ev ι} {M : Machine S ε ev ι} {v : σ} {c : FullStream K S} {act : SocketAct}
      {coin : Bool}, c.ctl = .at .reading → act.possible [] true = true →
      P.step M (.running v c) (.io (act.toIo []) coin) = none := by
    intro σ S ε ev ι P M v c act coin hctl hp
    cases act with
    | poll => simp only [Program.step, SocketAct.toIo, IoAct.toStream, FullStream.step, hctl]
    | read n => simp [SocketAct.possible] at hp
    | write n =>
      simp only [Program.step, SocketAct.toIo, IoAct.toStream, FullStream.step, hctl]
      split
      · rfl
      · split at * <;> simp_all
    | fail => cases hp
  constructor
  · intro act
    simp only [Session.step, h2, hd, Running.isRunning, Session.clientDoes, hc]
    split
    · rename_i hp; simp only [key h3 hp]
    · rfl
  · intro act coin
    simp only [Session.step, h1, hc, Running.isRunning, Session.serverDoes, hd]
    split
    · rename_i hp; simp only [key h4 hp]
    · rfl

/-- What is known when both programs wait. -/
theorem Live.waits (hf : Fitting L gc gs os gr P P' I Q J ok) (h : Live L gc gs os gr I J s R v c w d G n T) (hw : s.Waits) :
    (∃ A, clientItems T = A ++ [.starved]) ∧ (∃ B, serverItems T = B ++ [.starved]) ∧ n.toServer = [] ∧ n.toClient = [] ∧
    (∀ m ∈ serverMessages gr (serverItems T), m.RoundTrip L .default) ∧
    serverHeard (serverItems T) = (ClientView.of (clientItems T)).said ∧
    clientAnswers (clientItems T) = serverAnswers (serverItems T) ∧
    Turn (ClientView.of (clientItems T)) (serverPhase (serverItems T)) (serverDialogue (serverItems T)) := by
  obtain ⟨as, hr⟩ := h.link.run
  have hrt := Net.Linked.understood hf.lawful hf.built hf.size h.link.net h.clear (hf.fair h.inv) (hf.orderly h.inv')
  have hw' : (⟨c, d, s.toServer, s.toClient⟩ : StreamNet K).Waiting := by
    obtain ⟨h1, h2, ⟨v', c', h3, h4⟩, w', d', h5, h6⟩ := hw
    rw [h.client] at h3
    rw [h.server] at h5
    cases h3
    cases h5
    exact ⟨h1, h2, h4, h6⟩
  obtain ⟨⟨A, hA⟩, ⟨B, hB⟩, h1, h2⟩ := StreamNet.waiting_starved (paired := fun _ _ => True) hf.lawful hf.built (tc := none) (ts := none)
    trivial hr h.link.calm h.link.net hrt hw'
  obtain ⟨h3, h4, h5⟩ := (Net.run_linked h.link.net).turn_starved hf.lawful hf.built hrt hf.size (hf.fair h.inv) (hf.orderly h.inv') hA hB h1 h2
  exact ⟨⟨A, hA⟩, ⟨B, hB⟩, h1, h2, hrt, h3, h4, h5⟩

/-- When both programs wait, the client got the greeting. -/
theorem Live.greeted (hf : Fitting L gc gs os gr P P' I Q J ok) (h : Live L gc gs os gr I J s R v c w d G n T) (hw : s.Waits) :
    (ClientView.of (clientItems T)).greeted = true := by
  obtain ⟨⟨A, hA⟩, ⟨B, hB⟩, h1, h2, hrt, -⟩ := h.waits hf hw
  obtain ⟨-, hgr⟩ := (Net.run_linked h.link.net).all_read hf.lawful hrt h2 hA
  obtain ⟨sops, hst⟩ := (Net.run_linked h.link.net).server
  rw [hB] at hst
  have := Server.starved_greeting hst
  have e1 : serverOutputs (serverItems T) = serverOutputs B := by rw [hB]; simp [serverOutputs]
  rw [e1] at hgr
  rw [hA, ClientView.of_snoc]
  exact (ClientView.of_greeted A).2 (hgr.2 this)

/-! ## Termination -/

/-- Nobody enters a line, and no program makes a call. -/
def Quiet (a : SessionAct) (R : List SessionItem) : Prop :=
  (∀ text, a ≠ .clientLine text ∧ a ≠ .serverLine text) ∧ programCalls (sessionClient R) = [] ∧ programCalls (sessionServer R) = []

/-- A quiet step is a move of both streams. -/
theorem Fitting.moves (hf : Fitting L gc gs os gr P P' I Q J ok) (h : Live L gc gs os gr I J s R v c w d G n T) {a : SessionAct}
    (hs : s.step L P P' a = some (s', R')) (hq : Quiet a R') {v' : σ} {c' : FullStream K Client} {w' : τ} {d' : FullStream K Server}
    (hc' : s'.client = .running v' c') (hd' : s'.server = .running w' d') :
    ∃ G', StreamNet.Moves L ⟨c, d, s.toServer, s.toClient⟩ ⟨c', d', s'.toServer, s'.toClient⟩ G' := by
  obtain ⟨hc, hd, hl, hI, hJ, hC⟩ := h
  obtain ⟨hq1, hq2, hq3⟩ := hq
  cases a with
  | clientLine text => exact ((hq1 text).1 rfl).elim
  | serverLine text => exact ((hq1 text).2 rfl).elim
  | client act =>
    simp only [Session.step] at hs
    split at hs
    · rename_i hp
      obtain ⟨x, items, h1, rfl, rfl⟩ := Session.clientDoes_cases hs
      rw [hc] at h1
      obtain ⟨e', G', n', U, k1, k2⟩ := hl.clientIo hf.lawful hf.built hf.client hI h1
      cases hc'
      rw [(sessionClient_client items).1] at hq2
      obtain ⟨⟨rfl, k3⟩, k4⟩ := k2
      obtain ⟨D, k5, k6⟩ := k4 hq2
      have hr : s.server.isRunning = true := by rw [hd]; rfl
      rw [hr] at hp
      have hd' : s.server = .running w' d' := hd'
      rw [hd] at hd'
      cases hd'
      have h3 : (⟨c, d, s.toServer, s.toClient⟩ : StreamNet K).clientStep L act.toSide = some
          (⟨c', d, s.toServer ++ streamWrote (streamPart D), act.rest s.toClient⟩, D.map .client) := by
        unfold StreamNet.clientStep
        rw [act.toSide_toStream]
        simp only [k5, act.toSide_rest]
      refine ⟨D.map .client, .client act.toSide, ?_, ?_⟩
      · cases act with
        | poll => trivial
        | read k =>
          have : 0 < k ∧ s.toClient ≠ [] := by simpa [SocketAct.possible] using hp
          exact this
        | write k =>
          have : 0 < k := by simpa [SocketAct.possible] using hp
          exact this
        | fail => cases hp
      · dsimp only
        rw [k6]
        cases act <;> exact h3
    · cases hs
  | server act coin =>
    simp only [Session.step] at hs
    split at hs
    · rename_i hp
      obtain ⟨x, items, h1, rfl, rfl⟩ := Session.serverDoes_cases hs
      rw [hd] at h1
      obtain ⟨e', G', n', U, k1, k2, -⟩ := hl.serverIo hf.lawful hf.built hf.server hJ h1
      cases hd'
      rw [(sessionServer_server items).1] at hq3
      obtain ⟨⟨rfl, k3⟩, k4⟩ := k2
      obtain ⟨D, k5, k6⟩ := k4 hq3
      have hr : s.client.isRunning = true := by rw [hc]; rfl
      rw [hr] at hp
      have hc' : s.client = .running v' c' := hc'
      rw [hc] at hc'
      cases hc'
      have h3 : (⟨c, d, s.toServer, s.toClient⟩ : StreamNet K).serverStep L act.toSide = some
          (⟨c, d', act.rest s.toServer, s.toClient ++ streamWrote (streamPart D)⟩, D.map .server) := by
        unfold StreamNet.serverStep
        rw [act.toSide_toStream]
        simp only [k5, act.toSide_rest]
      refine ⟨D.map .server, .server act.toSide, ?_, ?_⟩
      · cases act with
        | poll => trivial
        | read k =>
          have : 0 < k ∧ s.toServer ≠ [] := by simpa [SocketAct.possible] using hp
          exact this
        | write k =>
          have : 0 < k := by simpa [SocketAct.possible] using hp
          exact this
        | fail => cases hp
      · dsimp only
        rw [k6]
        cases act <;> exact h3
    · cases hs

/-- There is no infinite run in which all steps are quiet and the client does not end. -/
theorem Fitting.rest (hf : Fitting L gc gs os gr P P' I Q J ok) {f : Nat → Session K σ τ} {a : Nat → SessionAct}
    {g : Nat → List SessionItem} (h0 : Live L gc gs os gr I J (f 0) R v c w d G n T)
    (hs : ∀ i, (f i).step L P P' (a i) = some (f (i + 1), g i)) (hq : ∀ i, Quiet (a i) (g i))
    (hr : ∀ i, (f i).client.isRunning = true) : False := by
  have hl : ∀ i, ∃ R v c w d G n T, Live L gc gs os gr I J (f i) R v c w d G n T := by
    intro i
    induction i with
    | zero => exact ⟨R, v, c, w, d, G, n, T, h0⟩
    | succ i ih =>
      obtain ⟨R, v, c, w, d, G, n, T, ih⟩ := ih
      rcases hf.step ih (hs i) with ⟨v', c', w', d', G', n', T', h⟩ | ⟨c', w', d', G', n', T', h⟩
      · exact ⟨_, v', c', w', d', G', n', T', h⟩
      · have := hr (i + 1)
        rw [h.over] at this
        cases this
  let F : Nat → StreamNet K := fun i =>
    ⟨(Classical.choose (Classical.choose_spec (Classical.choose_spec (hl i)))),
      (Classical.choose (Classical.choose_spec (Classical.choose_spec (Classical.choose_spec (Classical.choose_spec (hl i)))))),
      (f i).toServer, (f i).toClient⟩
  have hF : ∀ i, ∃ v w, (f i).client = .running v (F i).client ∧ (f i).server = .running w (F i).server ∧
      (F i).toServer = (f i).toServer ∧ (F i).toClient = (f i).toClient := by
    intro i
    obtain ⟨G, n, T, h⟩ := Classical.choose_spec (Classical.choose_spec (Classical.choose_spec (Classical.choose_spec (Classical.choose_spec (hl i)))))
    exact ⟨_, _, h.client, h.server, rfl, rfl⟩
  have e0 : F 0 = ⟨c, d, (f 0).toServer, (f 0).toClient⟩ := by
    obtain ⟨v1, w1, h1, h2, h3, h4⟩ := hF 0
    rw [h0.client] at h1
    rw [h0.server] at h2
    injection h1 with _ h1
    injection h2 with _ h2
    rw [h1, h2, ← h3, ← h4]
  have hm : ∀ i, ∃ G', (F i).Moves L (F (i + 1)) G' := by
    intro i
    obtain ⟨R, v, c, w, d, G, n, T, h⟩ := hl i
    obtain ⟨v1, w1, h1, h2, h3, h4⟩ := hF i
    obtain ⟨v2, w2, k1, k2, k3, k4⟩ := hF (i + 1)
    obtain ⟨G', hm⟩ := hf.moves h (hs i) (hq i) k1 k2
    refine ⟨G', ?_⟩
    rw [h.client] at h1
    rw [h.server] at h2
    injection h1 with _ h1
    injection h2 with _ h2
    rw [h1, h2, ← h3, ← h4, ← k3, ← k4] at hm
    exact hm
  obtain ⟨as, hrun⟩ := h0.link.run
  obtain ⟨i, hi⟩ := C63_rest (paired := fun _ _ => True) hf.lawful hf.built hf.size (tc := none) (ts := none) trivial hrun h0.link.calm
    (f := F) (g := fun i => Classical.choose (hm i)) e0 (fun i => Classical.choose_spec (hm i))
  -- without TLS nothing is refused
  have hun : ∀ i, ∃ as G', (StreamNet.new none none gc .default gs os gr).run L as = some (F i, G') := by
    intro i
    induction i with
    | zero => exact ⟨as, _, e0 ▸ hrun⟩
    | succ i ih =>
      obtain ⟨as, G', ih⟩ := ih
      obtain ⟨G1, b, -, hb⟩ := hm i
      exact ⟨as ++ [b], _, StreamNet.run_snoc ih hb⟩
  obtain ⟨as1, G1, h1⟩ := hun i
  obtain ⟨b, -, hb⟩ := Classical.choose_spec (hm i)
  have h2 := StreamNet.run_snoc h1 hb
  obtain ⟨⟨cs, p1⟩, ss, p2⟩ := StreamNet.run_parts h2
  rcases hi with hi | hi
  · exact FullStream.run_not_refused p1 rfl (List.mem_filterMap.2 ⟨_, List.mem_append_right _ hi, rfl⟩)
  · exact FullStream.run_not_refused p2 rfl (List.mem_filterMap.2 ⟨_, List.mem_append_right _ hi, rfl⟩)

/-- A bounded sequence that does not decrease is constant in the end. -/
theorem eventually_constant {u : Nat → Nat} (hm : ∀ i, u i ≤ u (i + 1)) {b : Nat} (hb : ∀ i, u i ≤ b) :
    ∃ m, ∀ i, m ≤ i → u (i + 1) = u i := by
  refine Classical.byContradiction fun hn => ?_
  have hn' : ∀ m, ∃ i, m ≤ i ∧ u i < u (i + 1) := by
    intro m
    refine Classical.byContradiction fun h => hn ⟨m, fun i hi => ?_⟩
    have h1 := hm i
    have h2 : ¬ u i < u (i + 1) := fun hx => h ⟨i, hi, hx⟩
    omega
  have mono : ∀ i k, u i ≤ u (i + k) := by
    intro i k
    induction k with
    | zero => exact Nat.le_refl _
    | succ k ih => exact Nat.le_trans ih (hm _)
  have grow : ∀ k, ∃ i, k ≤ u i := by
    intro k
    induction k with
    | zero => exact ⟨0, Nat.zero_le _⟩
    | succ k ih =>
      obtain ⟨i, hi⟩ := ih
      obtain ⟨j, hj, hlt⟩ := hn' i
      have := mono i (j - i)
      rw [show i + (j - i) = j by omega] at this
      exact ⟨j + 1, by omega⟩
  obtain ⟨i, hi⟩ := grow (b + 1)
  have := hb i
  omega

/-- There is no infinite run in which the client does not end, if the programs make a bounded number of calls and there are
no lines in the end. -/
theorem Fitting.finite (hf : Fitting L gc gs os gr P P' I Q J ok) (hg : ClearServer L .default os gr []) {f : Nat → Session K σ τ}
    {a : Nat → SessionAct} {R : Nat → List SessionItem}
    (h : ∀ i, Session.run L P P' ⟨Examples.startClient P gc, .running P'.start (.insecure (Server.new gs os gr)), [], []⟩
      ((List.range i).map a) = some (f i, R i))
    (hr : ∀ i, (f i).client.isRunning = true) {N b : Nat}
    (hlines : ∀ i, N ≤ i → ∀ text, a i ≠ .clientLine text ∧ a i ≠ .serverLine text)
    (hb : ∀ i, (programCalls (sessionClient (R i))).length + (programCalls (sessionServer (R i))).length ≤ b) : False := by
  have hstep : ∀ i, ∃ g, (f i).step L P P' (a i) = some (f (i + 1), g) ∧ R (i + 1) = R i ++ g := by
    intro i
    have h1 := h (i + 1)
    rw [List.range_succ, List.map_append] at h1
    obtain ⟨y, R1, R2, h2, h3, h4⟩ := Session.run_snoc h1
    rw [h i] at h2
    cases h2
    exact ⟨R2, h3, h4⟩
  have hc : ∀ i g, R (i + 1) = R i ++ g → programCalls (sessionClient (R (i + 1))) =
      programCalls (sessionClient (R i)) ++ programCalls (sessionClient g) ∧
      programCalls (sessionServer (R (i + 1))) = programCalls (sessionServer (R i)) ++ programCalls (sessionServer g) := by
    intro i g hx
    rw [hx, sessionClient_append, sessionServer_append, programCalls_append, programCalls_append]
    exact ⟨rfl, rfl⟩
  obtain ⟨m, hm⟩ := eventually_constant (b := b)
    (u := fun i => (programCalls (sessionClient (R i))).length + (programCalls (sessionServer (R i))).length)
    (by
      intro i
      obtain ⟨g, -, hx⟩ := hstep i
      obtain ⟨e1, e2⟩ := hc i g hx
      show _ ≤ (programCalls (sessionClient (R (i + 1)))).length + (programCalls (sessionServer (R (i + 1)))).length
      rw [e1, e2, List.length_append, List.length_append]
      omega) hb
  have hlive := hf.run hg (h (max m N))
  rcases hlive with ⟨v, c, w, d, G, n, T, h0⟩ | ⟨c, w, d, G, n, T, h0⟩
  · refine hf.rest (f := fun i => f (max m N + i)) (a := fun i => a (max m N + i))
      (g := fun i => Classical.choose (hstep (max m N + i))) h0 (fun i => (Classical.choose_spec (hstep (max m N + i))).1) ?_
      (fun i => hr _)
    intro i
    have hx := (Classical.choose_spec (hstep (max m N + i))).2
    obtain ⟨e1, e2⟩ := hc _ _ hx
    have hm := hm (max m N + i) (by omega)
    rw [e1, e2, List.length_append, List.length_append] at hm
    exact ⟨hlines _ (by omega), List.length_eq_zero_iff.1 (by omega), List.length_eq_zero_iff.1 (by omega)⟩
  · have := hr (max m N)
    rw [h0.over] at this
    cases this

end

end ImapFlow

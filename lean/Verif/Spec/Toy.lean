import Verif.Spec.Codec
import Verif.Spec.Framing

/-!
# A concrete lawful codec

A small codec that satisfies the contract `Lib.Lawful`.  It shows that the hypotheses of the theorems
can be met and is used for the concrete examples beside the theorems.

Wire format: lines end with LF.  A line that contains `{` announces a literal; its length is the
number of `x` after the brace, `{+` makes it non-synchronizing.
-/

namespace ImapFlow.Toy

/-- Split after the first LF. -/
def splitLine : Bytes → Option (Bytes × Bytes)
  | [] => none
  | b :: bs =>
    if b = LF then some ([LF], bs)
    else match splitLine bs with
      | none => none
      | some (line, rest) => some (b :: line, rest)

theorem splitLine_some {i line rest : Bytes} (h : splitLine i = some (line, rest)) :
    i = line ++ rest ∧ IsLine line := by
  induction i generalizing line rest with
  | nil => cases h
  | cons b bs ih =>
    simp only [splitLine] at h
    split at h
    · rename_i hb
      simp only [Option.some.injEq, Prod.mk.injEq] at h
      obtain ⟨rfl, rfl⟩ := h
      exact ⟨by simp [hb], [], rfl, by simp⟩
    · rename_i hb
      split at h
      · cases h
      · rename_i l r heq
        simp only [Option.some.injEq, Prod.mk.injEq] at h
        obtain ⟨rfl, rfl⟩ := h
        obtain ⟨h1, b', h2, h3⟩ := ih heq
        refine ⟨by rw [h1]; rfl, b :: b', by rw [h2]; rfl, ?_⟩
        simp only [List.mem_cons, not_or]
        exact ⟨fun e => hb e.symm, h3⟩

theorem splitLine_append {b rest : Bytes} (hb : LF ∉ b) :
    splitLine (b ++ LF :: rest) = some (b ++ [LF], rest) := by
  induction b with
  | nil => simp [splitLine]
  | cons x xs ih =>
    simp only [List.mem_cons, not_or] at hb
    simp only [List.cons_append, splitLine, ih hb.2]
    rw [if_neg (fun e => hb.1 e.symm)]

/-- The literal announced by a line. -/
def announced (line : Bytes) : Option (Nat × LiteralMode) :=
  match line.dropWhile (· != 123) with
  | [] => none
  | _ :: tail => some (tail.count 120, if tail.head? = some 43 then .nonSync else .sync)

/-- Parse a message into its lines and literals.  `error none` means incomplete. -/
def parse (i : Bytes) : Except (Option (Bytes × Nat × LiteralMode)) (Bytes × List Bytes) :=
  match _h : splitLine i with
  | none => .error none
  | some (line, rest) =>
    match announced line with
    | none => .ok (rest, [line])
    | some (k, mode) =>
      if rest = [] then .error (some (line, k, mode))
      else if rest.length < k then .error none
      else
        match parse (rest.drop k) with
        | .error none => .error none
        | .error (some (_, k, mode)) => .error (some (line, k, mode))
        | .ok (rem, parts) => .ok (rem, line :: rest.take k :: parts)
termination_by i.length
decreasing_by
  obtain ⟨h1, b, h2, -⟩ := splitLine_some _h
  have : line.length ≠ 0 := by rw [h2]; simp
  rw [h1]
  simp; omega

theorem parse_eq (i : Bytes) : parse i =
    match splitLine i with
    | none => .error none
    | some (line, rest) =>
      match announced line with
      | none => .ok (rest, [line])
      | some (k, mode) =>
        if rest = [] then .error (some (line, k, mode))
        else if rest.length < k then .error none
        else
          match parse (rest.drop k) with
          | .error none => .error none
          | .error (some (_, k, mode)) => .error (some (line, k, mode))
          | .ok (rem, parts) => .ok (rem, line :: rest.take k :: parts) := by
  conv => lhs; rw [parse]
  split
  · rename_i h; rw [h]
  · rename_i h; rw [h]

theorem splitLine_ext {i line rest : Bytes} (h : splitLine i = some (line, rest)) (x : Bytes) :
    splitLine (i ++ x) = some (line, rest ++ x) := by
  obtain ⟨rfl, b, rfl, hb⟩ := splitLine_some h
  have : b ++ [LF] ++ rest ++ x = b ++ LF :: (rest ++ x) := by simp
  rw [this, splitLine_append hb]

theorem parse_consumes {i rem : Bytes} {parts : List Bytes} (h : parse i = .ok (rem, parts)) :
    ∃ c, i = c ++ [LF] ++ rem ∧ parse (c ++ [LF]) = .ok ([], parts) := by
  fun_induction parse i generalizing rem parts with
  | case1 => cases h
  | case2 i line rest hsp han =>
    simp only [Except.ok.injEq, Prod.mk.injEq] at h
    obtain ⟨rfl, rfl⟩ := h
    obtain ⟨rfl, b, rfl, hb⟩ := splitLine_some hsp
    refine ⟨b, rfl, ?_⟩
    rw [parse_eq, splitLine_append hb]
    simp only [han]
  | case3 => cases h
  | case4 => cases h
  | case5 => cases h
  | case6 => cases h
  | case7 i line rest hsp k mode han hne hlen rem' parts' hp ih =>
    simp only [Except.ok.injEq, Prod.mk.injEq] at h
    obtain ⟨rfl, rfl⟩ := h
    obtain ⟨c, h1, h2⟩ := ih hp
    obtain ⟨rfl, b, rfl, hb⟩ := splitLine_some hsp
    have hr : rest = rest.take k ++ (c ++ [LF] ++ rem') := by rw [← h1, List.take_append_drop]
    refine ⟨b ++ [LF] ++ rest.take k ++ c, ?_, ?_⟩
    · conv => lhs; rw [hr]
      simp
    · have e : b ++ [LF] ++ rest.take k ++ c ++ [LF] = b ++ LF :: (rest.take k ++ (c ++ [LF])) := by simp
      have hk : (rest.take k).length = k := by simp; omega
      have hne' : rest.take k ++ (c ++ [LF]) ≠ [] := by simp
      have hlen' : ¬ (rest.take k ++ (c ++ [LF])).length < k := by
        rw [List.length_append, hk]; omega
      have hd : (rest.take k ++ (c ++ [LF])).drop k = c ++ [LF] := by
        rw [List.drop_append_of_le_length (by omega), List.drop_eq_nil_of_le (by omega)]; rfl
      have ht : (rest.take k ++ (c ++ [LF])).take k = rest.take k := by
        rw [List.take_append_of_le_length (by omega), List.take_of_length_le (by omega)]
      rw [e, parse_eq, splitLine_append hb]
      simp only [han, if_neg hne', if_neg hlen', hd, h2, ht]

theorem parse_literal {p x rem line : Bytes} {k : Nat} {mode : LiteralMode} {parts : List Bytes}
    (h : parse p = .error (some (line, k, mode))) (hx : parse (p ++ x) = .ok (rem, parts)) :
    rem.length + k < x.length := by
  fun_induction parse p generalizing line k mode parts with
  | case1 => cases h
  | case2 => cases h
  | case3 i line' k' mode' han hsp =>
    simp only [Except.error.injEq, Option.some.injEq, Prod.mk.injEq] at h
    obtain ⟨rfl, rfl, rfl⟩ := h
    rw [parse_eq, splitLine_ext hsp] at hx
    simp only [han, List.nil_append] at hx
    split at hx
    · cases hx
    · split at hx
      · cases hx
      · rename_i hlen
        split at hx
        · cases hx
        · cases hx
        · rename_i rem' parts' hp
          simp only [Except.ok.injEq, Prod.mk.injEq] at hx
          obtain ⟨c, h1, -⟩ := parse_consumes hp
          have := congrArg List.length h1
          simp at this
          rw [← hx.1]
          omega
  | case4 => cases h
  | case5 => cases h
  | case6 i line' rest hsp k' mode' han hne hlen l1 k1 m1 hp ih =>
    simp only [Except.error.injEq, Option.some.injEq, Prod.mk.injEq] at h
    obtain ⟨rfl, rfl, rfl⟩ := h
    rw [parse_eq, splitLine_ext hsp] at hx
    have hd : (rest ++ x).drop k' = rest.drop k' ++ x := List.drop_append_of_le_length (by omega)
    simp only [han, hd] at hx
    split at hx
    · cases hx
    · split at hx
      · cases hx
      · split at hx
        · cases hx
        · cases hx
        · rename_i rem' parts' hp'
          simp only [Except.ok.injEq, Prod.mk.injEq] at hx
          obtain ⟨rfl, rfl⟩ := hx
          exact ih hp hp'
  | case7 => cases h

/-- Decoder for messages without literals. -/
def decodeSimple {μ : Type} (interp : List Bytes → Option μ) : Decoder SimpleDecodeError μ := fun i =>
  match parse i with
  | .error _ => .error .incomplete
  | .ok (rem, parts) =>
    match interp parts with
    | none => .error .failed
    | some m => .ok (rem, m)

/-- Decoder for responses. -/
def decodeResponse (interp : List Bytes → Option Response) : Decoder ResponseDecodeError Response :=
  fun i =>
    match parse i with
    | .error none => .error .incomplete
    | .error (some (_, k, _)) => .error (.literalFound k)
    | .ok (rem, parts) =>
      match interp parts with
      | none => .error .failed
      | some m => .ok (rem, m)

/-- The tag of a command: everything before the first space or brace. -/
def tagOf (line : Bytes) : Bytes := line.takeWhile fun b => b != 32 && b != 123

/-- Decoder for commands. -/
def decodeCommand (interp : List Bytes → Option Command) : Decoder CommandDecodeError Command :=
  fun i =>
    match parse i with
    | .error none => .error .incomplete
    | .error (some (line, k, mode)) => .error (.literalFound (tagOf line) k mode)
    | .ok (rem, parts) =>
      match interp parts with
      | none => .error .failed
      | some m => .ok (rem, m)

theorem decodeSimple_lawful {μ : Type} (interp : List Bytes → Option μ) :
    LawfulDecoder (decodeSimple interp) SimpleDecodeError.literal where
  consumes i rem m h := by
    unfold decodeSimple at h
    split at h
    · cases h
    · rename_i r parts hp
      split at h
      · cases h
      · rename_i m' hi
        simp only [Except.ok.injEq, Prod.mk.injEq] at h
        obtain ⟨rfl, rfl⟩ := h
        obtain ⟨c, h1, h2⟩ := parse_consumes hp
        exact ⟨c, h1, by simp only [decodeSimple, h2, hi]⟩
  literal p e k x rem m _ hl _ := by cases hl

theorem decodeResponse_lawful (interp : List Bytes → Option Response) :
    LawfulDecoder (decodeResponse interp) ResponseDecodeError.literal where
  consumes i rem m h := by
    unfold decodeResponse at h
    split at h
    · cases h
    · cases h
    · rename_i r parts hp
      split at h
      · cases h
      · rename_i m' hi
        simp only [Except.ok.injEq, Prod.mk.injEq] at h
        obtain ⟨rfl, rfl⟩ := h
        obtain ⟨c, h1, h2⟩ := parse_consumes hp
        exact ⟨c, h1, by simp only [decodeResponse, h2, hi]⟩
  literal p e k x rem m he hl hx := by
    unfold decodeResponse at he hx
    split at he
    · cases he; cases hl
    · rename_i hp
      simp only [Except.error.injEq] at he
      subst he
      simp only [ResponseDecodeError.literal, Option.some.injEq] at hl
      subst hl
      split at hx
      · cases hx
      · cases hx
      · rename_i hp'
        split at hx
        · cases hx
        · simp only [Except.ok.injEq, Prod.mk.injEq] at hx
          rw [← hx.1]; exact parse_literal hp hp'
    · split at he
      · cases he; cases hl
      · cases he

theorem decodeCommand_lawful (interp : List Bytes → Option Command) :
    LawfulDecoder (decodeCommand interp) CommandDecodeError.literal where
  consumes i rem m h := by
    unfold decodeCommand at h
    split at h
    · cases h
    · cases h
    · rename_i r parts hp
      split at h
      · cases h
      · rename_i m' hi
        simp only [Except.ok.injEq, Prod.mk.injEq] at h
        obtain ⟨rfl, rfl⟩ := h
        obtain ⟨c, h1, h2⟩ := parse_consumes hp
        exact ⟨c, h1, by simp only [decodeCommand, h2, hi]⟩
  literal p e k x rem m he hl hx := by
    unfold decodeCommand at he hx
    split at he
    · cases he; cases hl
    · rename_i hp
      simp only [Except.error.injEq] at he
      subst he
      simp only [CommandDecodeError.literal, Option.some.injEq] at hl
      subst hl
      split at hx
      · cases hx
      · cases hx
      · rename_i hp'
        split at hx
        · cases hx
        · simp only [Except.ok.injEq, Prod.mk.injEq] at hx
          rw [← hx.1]; exact parse_literal hp hp'
    · split at he
      · cases he; cases hl
      · cases he

/-! ## The messages -/

/-- Append CRLF. -/
def ln (b : Bytes) : Bytes := b ++ [CR, LF]

/-- Remove CRLF (or LF). -/
def chomp (b : Bytes) : Bytes := (b.takeWhile (· != LF)).reverse.dropWhile (· == CR) |>.reverse

/-- Bytes that cannot be part of a line. -/
def needsLiteral (b : Bytes) : Bool := b.contains LF || b.contains CR || b.contains 123

/-- A line announcing a literal. -/
def announce (pre : Bytes) (k : Nat) : LiteralMode → Bytes
  | .sync => pre ++ [123] ++ List.replicate k 120
  | .nonSync => pre ++ [123, 43] ++ List.replicate k 120

/-- Capabilities are letters: `R` IMAP4rev1, `S` STARTTLS, `I` IDLE, `P` AUTH=PLAIN, `Q` AUTH=SCRAM-SHA-1-PLUS. -/
def encodeCapability : Capability → Byte
  | .imap4Rev1 => 82
  | .startTls => 83
  | .idle => 73
  | .auth .plain => 80
  | .auth .scramSha1Plus => 81
  | _ => 63

def decodeCapability (b : Byte) : Capability :=
  if b = 82 then .imap4Rev1
  else if b = 83 then .startTls
  else if b = 73 then .idle
  else if b = 80 then .auth .plain
  else if b = 81 then .auth .scramSha1Plus
  else .other [b]

/-- `[A]` is an alert, `[C...]` are capabilities. -/
def encodeCode : Option Code → Bytes
  | none => []
  | some .alert => [91, 65, 93]
  | some (.capability cs) => [91, 67] ++ cs.toList.map encodeCapability ++ [93]
  | some (.other _) => [91, 63, 93]

def decodeCode : Bytes → Option Code × Bytes
  | 91 :: 65 :: 93 :: text => (some .alert, text)
  | 91 :: 67 :: b :: rest =>
    (some (.capability ⟨decodeCapability b, (rest.takeWhile (· != 93)).map decodeCapability⟩),
     (rest.dropWhile (· != 93)).drop 1)
  | text => (none, text)

def encodeGreeting (g : Greeting) : List Fragment := [.line (ln (71 :: (encodeCode g.code ++ g.text)))]

def interpGreeting : List Bytes → Option Greeting
  | [71 :: line] =>
    let (code, text) := decodeCode (chomp line)
    some { kind := .ok, code, text }
  | _ => none

/-- `tag A` or `tag L` (AUTHENTICATE) / `tag I` / content as text, as a literal, as a non-synchronizing literal (content starting
with `!`) or as two literals (content starting with `2`). -/
def encodeCommand (c : Command) : List Fragment :=
  match c.body with
  | .authenticate mechanism _ => [.line (ln (c.tag ++ [32, if mechanism = .login then 76 else 65]))]
  | .idle => [.line (ln (c.tag ++ [32, 73]))]
  | .other (33 :: d) => [.line (ln (announce c.tag d.length .nonSync)), .literal d .nonSync, .line (ln [])]
  | .other (50 :: d) =>
    let d1 := d.take (d.length / 2)
    let d2 := d.drop (d.length / 2)
    [.line (ln (announce c.tag d1.length .sync)), .literal d1 .sync,
     .line (ln (announce [32] d2.length .sync)), .literal d2 .sync, .line (ln [])]
  | .other d =>
    if needsLiteral d then
      [.line (ln (announce c.tag d.length .sync)), .literal d .sync, .line (ln [])]
    else [.line (ln (c.tag ++ [32, 67] ++ d))]

def interpCommand : List Bytes → Option Command
  | [line] =>
    let tag := tagOf line
    match chomp (line.drop (tag.length + 1)) with
    | [65] => some ⟨tag, .authenticate .plain none⟩
    | [76] => some ⟨tag, .authenticate .login none⟩
    | [73] => some ⟨tag, .idle⟩
    | 67 :: d => some ⟨tag, .other d⟩
    | _ => none
  | [line, d, _] =>
    match announced line with
    | some (_, .nonSync) => some ⟨tagOf line, .other (33 :: d)⟩
    | _ => some ⟨tagOf line, .other d⟩
  | [line, d1, _, d2, _] => some ⟨tagOf line, .other (50 :: (d1 ++ d2))⟩
  | _ => none

def encodeAuthenticateData : AuthenticateData → List Fragment
  | .continue d => [.line (ln (68 :: d))]
  | .cancel => [.line (ln [42])]

def interpAuthenticateData : List Bytes → Option AuthenticateData
  | [68 :: d] => some (.continue (chomp d))
  | [42 :: _] => some .cancel
  | _ => none

def interpIdleDone : List Bytes → Option Unit
  | [l] => if chomp l = [68] then some () else none
  | _ => none

/-- `+text`, `*data`, `Ccapabilities`, `otag text`, `ntag text`, `btag text`, `uo text`; everything else is `?`. -/
def encodeResponse : Response → List Fragment
  | .continuationRequest (.basic code text) => [.line (ln (43 :: (encodeCode code ++ text)))]
  | .data (.other d) =>
    if needsLiteral d then
      [.line (ln (announce [42] d.length .sync)), .literal d .sync, .line (ln [])]
    else [.line (ln (42 :: d))]
  | .data (.capability cs) => [.line (ln (67 :: cs.toList.map encodeCapability))]
  | .status (.tagged tag { kind, code, text }) =>
    let k : Byte := match kind with | .ok => 111 | .no => 110 | .bad => 98
    [.line (ln (k :: (tag ++ 32 :: (encodeCode code ++ text))))]
  | .status (.untagged { kind := .ok, code, text }) => [.line (ln (117 :: (encodeCode code ++ text)))]
  | _ => [.line (ln [63])]

def interpResponse : List Bytes → Option Response
  | [43 :: line] =>
    let (code, text) := decodeCode (chomp line)
    some (.continuationRequest (.basic code text))
  | [42 :: d] => some (.data (.other (chomp d)))
  | [67 :: line] =>
    match (chomp line).map decodeCapability with
    | [] => none
    | c :: cs => some (.data (.capability ⟨c, cs⟩))
  | [117 :: line] =>
    let (code, text) := decodeCode (chomp line)
    some (.status (.untagged { kind := .ok, code, text }))
  | [b :: line] =>
    let tag := tagOf line
    let (code, text) := decodeCode (chomp (line.drop (tag.length + 1)))
    if b = 111 then some (.status (.tagged tag { kind := .ok, code, text }))
    else if b = 110 then some (.status (.tagged tag { kind := .no, code, text }))
    else if b = 98 then some (.status (.tagged tag { kind := .bad, code, text }))
    else none
  | [42 :: _, d, _] => some (.data (.other d))
  | _ => none

/-- Printable ASCII, not empty. -/
def textValid (t : Bytes) : Bool := !t.isEmpty && t.all fun b => 32 ≤ b && b < 127

/-- The toy library. -/
def lib : Lib where
  encodeGreeting := encodeGreeting
  encodeCommand := encodeCommand
  encodeAuthenticateData := encodeAuthenticateData
  encodeIdleDone := [.line (ln [68])]
  encodeResponse := encodeResponse
  decodeGreeting := decodeSimple interpGreeting
  decodeResponse := decodeResponse interpResponse
  decodeCommand := decodeCommand interpCommand
  decodeAuthenticateData := decodeSimple interpAuthenticateData
  decodeIdleDone := decodeSimple interpIdleDone
  textValid := textValid
  ccrBasicValid hasCode t := hasCode || textValid t

theorem ln_ne (b : Bytes) : ln b ≠ [] := by simp [ln]

/-- The toy library satisfies the contract. -/
theorem lawful : lib.Lawful where
  greeting := decodeSimple_lawful _
  response := decodeResponse_lawful _
  command := decodeCommand_lawful _
  authenticateData := decodeSimple_lawful _
  idleDone := decodeSimple_lawful _
  encodeAuthenticate _ _ _ := ⟨_, rfl, ln_ne _⟩
  encodeIdle _ := ⟨_, rfl, ln_ne _⟩
  encodeData d := by cases d <;> exact ⟨_, rfl, ln_ne _⟩
  encodeDone := ⟨_, rfl, ln_ne _⟩
  encodeCommand c := by
    show ∃ d rest, encodeCommand c = _ ∧ _
    unfold encodeCommand
    split
    · exact ⟨_, _, rfl, ln_ne _⟩
    · exact ⟨_, _, rfl, ln_ne _⟩
    · exact ⟨_, _, rfl, ln_ne _⟩
    · exact ⟨_, _, rfl, ln_ne _⟩
    · split
      · exact ⟨_, _, rfl, ln_ne _⟩
      · exact ⟨_, _, rfl, ln_ne _⟩
  defaultText := by decide

end ImapFlow.Toy

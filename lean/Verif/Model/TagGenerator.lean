import Verif.Model.Types

/-!
# Tags (`/repo/tag-generator/src/lib.rs`)
-/

namespace ImapFlow

/-- `format!("{}", n)` of an unsigned integer: decimal digits without leading zeros. -/
def decimal (n : Nat) : Bytes :=
  if n < 10 then [UInt8.ofNat (48 + n)] else decimal (n / 10) ++ [UInt8.ofNat (48 + n % 10)]

/-- The byte `.`. -/
def DOT : UInt8 := 46

/-- `TagGenerator`, `/repo/tag-generator/src/lib.rs:9-13`. -/
structure TagGenerator where
  global : UInt64
  counter : UInt64
  deriving DecidableEq, Repr

/-- `TagGenerator::new`, `/repo/tag-generator/src/lib.rs:20-26`.  The argument and the first result are
the value of `GLOBAL_TAG_GENERATOR_COUNT` (line 7) before and after the atomic, wrapping `fetch_add`. -/
def TagGenerator.new (count : UInt64) : UInt64 × TagGenerator :=
  (count + 1, { global := count, counter := 0 })

/-- `TagGenerator::generate`, `/repo/tag-generator/src/lib.rs:35-49`.  `token` is the random string
sampled in release builds (lines 36-40); `none` in builds with `debug_assertions` (lines 43-44). -/
def TagGenerator.generate (g : TagGenerator) (token : Option Bytes) : TagGenerator × Tag :=
  let inner :=
    match token with
    | some token => decimal g.global.toNat ++ [DOT] ++ decimal g.counter.toNat ++ [DOT] ++ token
    | none => decimal g.global.toNat ++ [DOT] ++ decimal g.counter.toNat
  ({ g with counter := g.counter + 1 }, inner)

end ImapFlow

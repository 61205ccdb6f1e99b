import Verif.Model.Types

/-!
# Handles (`/repo/src/handle.rs`)
-/

namespace ImapFlow

/-- `RawHandle`, `/repo/src/handle.rs:12-15`.  `CommandHandle` (`/repo/src/client.rs:291`) and
`ResponseHandle` (`/repo/src/server.rs:509`) are newtypes around it. -/
structure RawHandle where
  generatorId : UInt64
  handleId : UInt64
  deriving DecidableEq, Repr

/-- `HandleGenerator`, `/repo/src/handle.rs:27-34`. -/
structure HandleGenerator where
  generatorId : UInt64
  nextHandleId : UInt64
  deriving DecidableEq, Repr

/-- `HandleGenerator::generate`, `/repo/src/handle.rs:46-54`; `UInt64` addition wraps like
`wrapping_add`. -/
def HandleGenerator.generate (g : HandleGenerator) : HandleGenerator × RawHandle :=
  let handleId := g.nextHandleId
  ({ g with nextHandleId := g.nextHandleId + 1 }, { generatorId := g.generatorId, handleId := handleId })

/-- `HandleGeneratorGenerator`, `/repo/src/handle.rs:57-60`: one process-wide `AtomicU64`
per handle type (`/repo/src/client.rs:24-25`, `/repo/src/server.rs:30-31`). -/
structure HandleGeneratorGenerator where
  nextHandleGeneratorId : UInt64
  deriving DecidableEq, Repr

/-- `HandleGeneratorGenerator::new`, `/repo/src/handle.rs:63-68`. -/
def HandleGeneratorGenerator.new : HandleGeneratorGenerator := { nextHandleGeneratorId := 0 }

/-- `HandleGeneratorGenerator::generate`, `/repo/src/handle.rs:70-82`.  `fetch_add` is one atomic
step that wraps around; the relaxed ordering does not matter for a single counter. -/
def HandleGeneratorGenerator.generate (g : HandleGeneratorGenerator) :
    HandleGeneratorGenerator × HandleGenerator :=
  ({ nextHandleGeneratorId := g.nextHandleGeneratorId + 1 },
   { generatorId := g.nextHandleGeneratorId, nextHandleId := 0 })

end ImapFlow

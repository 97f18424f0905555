import Mathlib.Data.List.Basic
import Mathlib.Logic.Function.Basic

/-! # Model of common/utils/pk-vk-utils.go: key, witness, proof and public-input files

The disk maps a path to the content of a file. A call of one of the `Write*` functions is a process that makes system
calls one at a time: `os.Create`, then one `Write` per chunk that the serializer produces. Between two system calls the
other processes may run, or the program may die (then no later step happens). A system call may fail: `os.Create` then
leaves the disk as it was, `Write` then has stored some first part of the chunk.

Not modelled: the serializers of gnark (a list of chunks, respectively a partial function from bytes, both arbitrary),
loss of data that the kernel had accepted (power failure), permissions, directories, file descriptors. -/

namespace Verif.Common.KeyFiles

abbrev Bytes := List UInt8

abbrev Disk := String → Option Bytes

/-- What the operating system does with one system call: carry it out, or fail. A failing `Write` has stored `n` bytes. -/
inductive Outcome
  | ok
  | fail (n : ℕ)

/-- Where a `Write*` call stands: `os.Create` still to be made, writing (offset of the file descriptor and chunks still
to be written), or returned (`true`: no error was met). -/
inductive Phase
  | start (chunks : List Bytes)
  | writing (off : ℕ) (chunks : List Bytes)
  | returned (ok : Bool)
  deriving DecidableEq

/-- A call of a `Write*` function on `path`. -/
structure Proc where
  path : String
  phase : Phase

/-- POSIX `write` of `c` at offset `off`; a gap is filled with zero bytes. -/
def pwrite (content : Bytes) (off : ℕ) (c : Bytes) : Bytes :=
  content.take off ++ List.replicate (off - content.length) 0 ++ c ++ content.drop (off + c.length)

/-- One system call of a `Write*` function.
pk-vk-utils.go:58-69 (`WritePlonkVerifyingKey`), 82-95 (`WriteWitness`), 108-118 (`WritePlonkCcs`),
120-134 (`WritePlonkVKSolidity`), 147-163 (`WritePlonkProofIntoLocalFile`), 176-186 (`WriteProvingKey`),
199-212 (`WriteVerifyingKey`), 225-235 (`WriteCcs`), 237-251 (`WriteVKSolidity`), 264-280 (`WriteProofIntoLocalFile`),
286-302 (`WritePublicInputs`, one chunk): `os.Create` truncates; the serializer stops at the first error.
36-45 (`WritePlonkProvingKey`): when `os.Create` fails the code goes on with a nil `*os.File`, whose `Write` fails without
touching the disk, so the effect is the same. Closing the file has no effect on its content. -/
def stepProc (d : Disk) (pr : Proc) (o : Outcome) : Disk × Proc :=
  match pr.phase, o with
  | .start cs, .ok => (Function.update d pr.path (some []), { pr with phase := .writing 0 cs })
  | .start _, .fail _ => (d, { pr with phase := .returned false })
  | .writing _ [], _ => (d, { pr with phase := .returned true })
  | .writing off (c :: cs), .ok =>
      (Function.update d pr.path (some (pwrite ((d pr.path).getD []) off c)),
        { pr with phase := .writing (off + c.length) cs })
  | .writing off (c :: _), .fail n =>
      (Function.update d pr.path (some (pwrite ((d pr.path).getD []) off (c.take n))), { pr with phase := .returned false })
  | .returned _, _ => (d, pr)

/-- A disk and the calls in progress. -/
structure World where
  disk : Disk
  procs : ℕ → Proc

/-- Process `i` makes its next system call. -/
def step (w : World) (e : ℕ × Outcome) : World :=
  let r := stepProc w.disk (w.procs e.1) e.2
  ⟨r.1, Function.update w.procs e.1 r.2⟩

/-- A schedule: who makes the next system call, and what the operating system answers. Stopping the schedule anywhere is a
crash at that point. -/
def run (w : World) (sched : List (ℕ × Outcome)) : World := sched.foldl step w

/-- pk-vk-utils.go:25-34, 47-56, 71-80, 97-106, 136-145, 165-174, 188-197, 214-223, 253-262: `os.Open`, then the decoder;
an error is `none`. 15-23, 282-284 (`ReadFileAndReturnByteArray`, `ReadPublicInputs`) with `dec = some`. -/
def read {α : Type} (dec : Bytes → Option α) (d : Disk) (path : String) : Option α := (d path).bind dec

/-- What the caller gets back. -/
inductive Ret
  | nothing
  | nilError
  | error
  deriving DecidableEq

/-- The return value of a call that met no error (`ok`) or an error: pk-vk-utils.go:36-45 has no result, every other
`Write*` function returns the first error. -/
def returnValue (isPlonkProvingKey ok : Bool) : Ret :=
  if isPlonkProvingKey then .nothing else if ok then .nilError else .error

end Verif.Common.KeyFiles

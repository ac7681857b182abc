import Verif.Runtime.Spec

/-!
A thread of the target process that is just entering a function while live patches come and go.

The tool stops every thread of the process before it lets libpulp work (`hijack_threads`,
tools/introspection.c:1473-1616, modelled in `Verif.Hijack`), and lets them run again afterwards; so a thread that
is entering a function executes some of the instructions at the entry, is stopped between two of them for any number
of requests, and goes on in the memory as it is then.
-/

namespace Verif.Midway

open Runtime
open Verif.Runtime.Spec (Patch track inPad Fits)

/-- A thread that has called `f` and has not yet left its entry, in a process with image `m₀`.
`s`, `ps`: state of the process and bookkeeping of the user (by requests and answers); `pc`: next instruction of the thread;
`n`: instructions it has executed since the call; `ms`: the bookkeeping at all moments since the call, newest first.
* `start`: the call has just been made.
* `request`: the thread is stopped, a request is served (libpulp and the tool), and the thread is continued with the same
  program counter: `set_regs` of `restore_threads`, tools/introspection.c:1842-1870 (the main thread, which has served
  the request, gets its registers back; for the others they are the same).
* `step`: the thread executes one instruction of the entry. -/
inductive Call (fuel : Nat) (m₀ : Mem) (F slot : Nat → Prop) (f : Nat) (s₀ : State) (ps₀ : List Patch) :
    State → List Patch → (pc n : Nat) → (ms : List (List Patch)) → Prop where
  | start : Call fuel m₀ F slot f s₀ ps₀ s₀ ps₀ f 0 [ps₀]
  | request {s ps pc n ms r s' a} (h : Call fuel m₀ F slot f s₀ ps₀ s ps pc n ms) (hr : Fits m₀ F slot r)
      (hs : serve fuel s r = some (s', a)) : Call fuel m₀ F slot f s₀ ps₀ s' (track ps r a) pc n (track ps r a :: ms)
  | step {s ps pc n ms pc'} (h : Call fuel m₀ F slot f s₀ ps₀ s ps pc n ms) (hp : inPad m₀ f pc)
      (hs : X86.Spec.step s.mem pc = some pc') : Call fuel m₀ F slot f s₀ ps₀ s ps pc' (n + 1) ms

end Verif.Midway

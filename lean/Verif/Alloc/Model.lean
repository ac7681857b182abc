import Verif.Base.Err

/-!
Model of the two aligned allocation functions libpulp emulates as long as the real ones are not known.  `size_t` is
`BitVec 64`; `memalign` is glibc's `__libc_memalign`, any function (`none` is `NULL`).
-/

namespace Verif.Alloc

/-- What `aligned_alloc` returns, and `errno` if it is set. -/
structure AllocRes where
  ptr : Option Nat
  errno : Option Err
deriving DecidableEq, Repr

/-- `aligned_alloc`, lib/interpose.c:508-516. -/
def alignedAlloc (memalign : BitVec 64 → BitVec 64 → Option Nat) (alignment size : BitVec 64) : AllocRes :=
  if (alignment &&& (alignment - 1)) ≠ 0#64 ∨ (size &&& (alignment - 1)) ≠ 0#64 then ⟨none, some EINVAL⟩
  else ⟨memalign alignment size, none⟩

/-- `powerof2` of sys/param.h. -/
def powerof2 (x : BitVec 64) : Bool := ((x - 1) &&& x) == 0#64

/-- `posix_memalign`, lib/interpose.c:530-547: the return value, and what is stored at `*memptr` if anything. -/
def posixMemalign (memalign : BitVec 64 → BitVec 64 → Option Nat) (alignment size : BitVec 64) : Err × Option Nat :=
  if alignment % 8#64 ≠ 0#64 ∨ powerof2 (alignment / 8#64) = false ∨ alignment = 0#64 then (EINVAL, none)
  else match memalign alignment size with
    | some mem => (0, some mem)
    | none => (ENOMEM, none)

end Verif.Alloc

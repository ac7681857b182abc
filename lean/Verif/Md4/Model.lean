import Verif.Base.Mem

/-!
Model of tools/md4.c.  `malloc` is assumed to succeed (otherwise the function returns NULL).
-/

namespace Verif.Md4

/-- The digest state, tools/md4.c:75-78. -/
structure St where
  a : UInt32
  b : UInt32
  c : UInt32
  d : UInt32
deriving DecidableEq, Repr

/-- `zeros`, tools/md4.c:100-108, from the length of the input (`total` is 64-bit). -/
def zeros (len : Nat) : Nat :=
  let z := ((len + 1) % 2 ^ 64) % 64
  if z ≤ 56 then 56 - z else 64 - (z - 56)

/-- `total`, tools/md4.c:86-115. -/
def total (len : Nat) : Nat := (((len + 1) % 2 ^ 64 + zeros len) % 2 ^ 64 + 8) % 2 ^ 64

/-- One iteration of the loop that fills in the message size, tools/md4.c:140-143. -/
def putSize (len : Nat) (buf : List UInt8) (i : Nat) : List UInt8 :=
  buf.set (len + 1 + zeros len + i) (UInt8.ofNat (((len * 8) % 2 ^ 64) >>> (8 * i)))

/-- The padded buffer, tools/md4.c:118-143. -/
def buffer (input : List UInt8) : List UInt8 :=
  let buf := input ++ List.replicate (total input.length - input.length) 0
  let buf := buf.set input.length 0x80
  (List.range 8).foldl (putSize input.length) buf

/-- One word `X[j]`, tools/md4.c:162-170, read at offset `4 * j` of the block.  (The `char` is masked
with 0xff, so its signedness does not matter.) -/
def readWord (block : List UInt8) (j : Nat) : UInt32 :=
  (List.range 4).foldl (fun x k => (x <<< 8) ||| (0x00ff &&& (block.getD (4 * j + (3 - k)) 0).toUInt32)) 0

/-- `(A << s) | (A >> (32 - s))`. -/
def rotl (a : UInt32) (s : Nat) : UInt32 := (a <<< UInt32.ofNat s) ||| (a >>> UInt32.ofNat (32 - s))

/-- Which register a line of the rounds assigns to; the other three arguments of the macros follow it
cyclically. -/
inductive Reg where
  | A | B | C | D

/-- Assigns `f x y z w` to register `r`, whose value is `x`; `y z w` are the other macro arguments. -/
def upd (r : Reg) (f : UInt32 → UInt32 → UInt32 → UInt32 → UInt32) (s : St) : St :=
  match r with
  | .A => { s with a := f s.a s.b s.c s.d }
  | .D => { s with d := f s.d s.a s.b s.c }
  | .C => { s with c := f s.c s.d s.a s.b }
  | .B => { s with b := f s.b s.c s.d s.a }

/-- The macro `R1`, tools/md4.c:180-185. -/
def r1 (r : Reg) (X : Nat → UInt32) (i s : Nat) : St → St :=
  upd r fun x y z w => rotl (x + ((y &&& z) ||| (~~~ y &&& w)) + X i) s

/-- The macro `R2`, tools/md4.c:209-214. -/
def r2 (r : Reg) (X : Nat → UInt32) (i s : Nat) : St → St :=
  upd r fun x y z w => rotl (x + ((y &&& z) ||| (y &&& w) ||| (z &&& w)) + X i + 0x5A827999) s

/-- The macro `R3`, tools/md4.c:238-243. -/
def r3 (r : Reg) (X : Nat → UInt32) (i s : Nat) : St → St :=
  upd r fun x y z w => rotl (x + (y ^^^ z ^^^ w) + X i + 0x6ED9EBA1) s

/-- Round 1, tools/md4.c:187-202. -/
def round1 (X : Nat → UInt32) (st : St) : St :=
  st
    |> r1 .A X 0 3
    |> r1 .D X 1 7
    |> r1 .C X 2 11
    |> r1 .B X 3 19
    |> r1 .A X 4 3
    |> r1 .D X 5 7
    |> r1 .C X 6 11
    |> r1 .B X 7 19
    |> r1 .A X 8 3
    |> r1 .D X 9 7
    |> r1 .C X 10 11
    |> r1 .B X 11 19
    |> r1 .A X 12 3
    |> r1 .D X 13 7
    |> r1 .C X 14 11
    |> r1 .B X 15 19

/-- Round 2, tools/md4.c:216-231. -/
def round2 (X : Nat → UInt32) (st : St) : St :=
  st
    |> r2 .A X 0 3
    |> r2 .D X 4 5
    |> r2 .C X 8 9
    |> r2 .B X 12 13
    |> r2 .A X 1 3
    |> r2 .D X 5 5
    |> r2 .C X 9 9
    |> r2 .B X 13 13
    |> r2 .A X 2 3
    |> r2 .D X 6 5
    |> r2 .C X 10 9
    |> r2 .B X 14 13
    |> r2 .A X 3 3
    |> r2 .D X 7 5
    |> r2 .C X 11 9
    |> r2 .B X 15 13

/-- Round 3, tools/md4.c:245-260. -/
def round3 (X : Nat → UInt32) (st : St) : St :=
  st
    |> r3 .A X 0 3
    |> r3 .D X 8 9
    |> r3 .C X 4 11
    |> r3 .B X 12 15
    |> r3 .A X 2 3
    |> r3 .D X 10 9
    |> r3 .C X 6 11
    |> r3 .B X 14 15
    |> r3 .A X 1 3
    |> r3 .D X 9 9
    |> r3 .C X 5 11
    |> r3 .B X 13 15
    |> r3 .A X 3 3
    |> r3 .D X 11 9
    |> r3 .C X 7 11
    |> r3 .B X 15 15

/-- The loop body, tools/md4.c:158-269, on the 64 bytes at `bufptr`. -/
def doBlock (block : List UInt8) (st : St) : St :=
  let X := readWord block
  let n := round3 X (round2 X (round1 X st))
  { a := n.a + st.a, b := n.b + st.b, c := n.c + st.c, d := n.d + st.d }

/-- The loop over the blocks, tools/md4.c:157-270, with its body; `buf` starts at `bufptr`. -/
def loop (body : List UInt8 → St → St) : Nat → List UInt8 → St → St
  | 0, _, st => st
  | n + 1, buf, st => loop body n (buf.drop 64) (body (buf.take 64) st)

/-- The macro `APPEND`, tools/md4.c:285-291. -/
def append (item : UInt32) : List UInt8 :=
  (List.range 4).map fun i => ((item >>> UInt32.ofNat (8 * i)) &&& 0x0ff).toUInt8

/-- `MD4`, tools/md4.c:43-290. -/
def md4 (input : List UInt8) : List UInt8 :=
  let st := loop doBlock (total input.length / 64) (buffer input) ⟨0x67452301, 0xefcdab89, 0x98badcfe, 0x10325476⟩
  append st.a ++ append st.b ++ append st.c ++ append st.d

end Verif.Md4

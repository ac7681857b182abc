import Verif.Base.Mem

/-!
MD4 as defined in RFC 1320, section 3, for messages of whole bytes.  Words are 32-bit vectors.
-/

namespace Verif.Md4.Spec

abbrev Word := BitVec 32

/-- Step 1 and 2, "Append Padding Bits" and "Append Length": one bit 1 (0x80), as few zero bits as make
the length congruent to 448 modulo 512 bits (56 modulo 64 bytes), and the number of bits modulo 2^64,
low-order byte first. -/
def IsPadded (msg padded : List UInt8) : Prop :=
  ∃ k, (msg.length + 1 + k) % 64 = 56 ∧ (∀ j, (msg.length + 1 + j) % 64 = 56 → k ≤ j) ∧
    padded = msg ++ [0x80] ++ List.replicate k 0 ++ le 8 (8 * msg.length)

/-- Step 3, "Initialize MD Buffer": word A: 01 23 45 67, and so on, low-order byte first. -/
def init : Word × Word × Word × Word :=
  (BitVec.ofNat 32 (leVal [0x01, 0x23, 0x45, 0x67]), BitVec.ofNat 32 (leVal [0x89, 0xab, 0xcd, 0xef]),
   BitVec.ofNat 32 (leVal [0xfe, 0xdc, 0xba, 0x98]), BitVec.ofNat 32 (leVal [0x76, 0x54, 0x32, 0x10]))

/-- F(X,Y,Z) = XY v not(X) Z -/
def F (x y z : Word) : Word := (x &&& y) ||| (~~~ x &&& z)
/-- G(X,Y,Z) = XY v XZ v YZ -/
def G (x y z : Word) : Word := (x &&& y) ||| (x &&& z) ||| (y &&& z)
/-- H(X,Y,Z) = X xor Y xor Z -/
def H (x y z : Word) : Word := x ^^^ y ^^^ z

/-- "[abcd k s]": a = (a + f(b,c,d) + X[k] + const) <<< s.  The operations of a round are done on abcd,
dabc, cdab, bcda, abcd, ... in turn, so the operation always applies to the first of the four and they
are rotated to put the next one first. -/
def op (f : Word → Word → Word → Word) (const : Word) (X : Nat → Word) :
    Word × Word × Word × Word → Nat × Nat → Word × Word × Word × Word
  | (a, b, c, d), (k, s) => (d, (a + f b c d + X k + const).rotateLeft s, b, c)

/-- The `k s` of the operations of the three rounds, in the order of the RFC. -/
def ops1 : List (Nat × Nat) :=
  [(0, 3), (1, 7), (2, 11), (3, 19), (4, 3), (5, 7), (6, 11), (7, 19),
   (8, 3), (9, 7), (10, 11), (11, 19), (12, 3), (13, 7), (14, 11), (15, 19)]
def ops2 : List (Nat × Nat) :=
  [(0, 3), (4, 5), (8, 9), (12, 13), (1, 3), (5, 5), (9, 9), (13, 13),
   (2, 3), (6, 5), (10, 9), (14, 13), (3, 3), (7, 5), (11, 9), (15, 13)]
def ops3 : List (Nat × Nat) :=
  [(0, 3), (8, 9), (4, 11), (12, 15), (2, 3), (10, 9), (6, 11), (14, 15),
   (1, 3), (9, 9), (5, 11), (13, 15), (3, 3), (11, 9), (7, 11), (15, 15)]

/-- Word `j` of a 16-word block, low-order byte first. -/
def word (block : List UInt8) (j : Nat) : Word := BitVec.ofNat 32 (leVal ((block.drop (4 * j)).take 4))

/-- Step 4, "Process Message in 16-Word Blocks". -/
def process (s : Word × Word × Word × Word) (block : List UInt8) : Word × Word × Word × Word :=
  let X := word block
  let r := ops1.foldl (op F 0 X) s
  let r := ops2.foldl (op G 0x5A827999 X) r
  let r := ops3.foldl (op H 0x6ED9EBA1 X) r
  (r.1 + s.1, r.2.1 + s.2.1, r.2.2.1 + s.2.2.1, r.2.2.2 + s.2.2.2)

/-- `blocks` are the consecutive 64-byte blocks of the padded message. -/
def IsBlocks (padded : List UInt8) (blocks : List (List UInt8)) : Prop :=
  padded = blocks.flatten ∧ ∀ b ∈ blocks, b.length = 64

/-- Step 5, "Output": A, B, C, D, low-order byte first. -/
def output (s : Word × Word × Word × Word) : List UInt8 :=
  le 4 s.1.toNat ++ le 4 s.2.1.toNat ++ le 4 s.2.2.1.toNat ++ le 4 s.2.2.2.toNat

/-- `digest` is the MD4 digest of `msg`. -/
def IsMd4 (msg digest : List UInt8) : Prop :=
  ∃ padded blocks, IsPadded msg padded ∧ IsBlocks padded blocks ∧ digest = output (blocks.foldl process init)

end Verif.Md4.Spec

/-!
# Core of the model: outcomes, memory bytes, C integers

The definitions in this file model the C abstract machine, not a function of the library.
-/

namespace Id3

/-- Kinds of undefined (or otherwise fatal) behaviour that the model distinguishes. -/
inductive UB where
  /-- read outside the bounds of an object -/
  | oobRead
  /-- write outside the bounds of an object -/
  | oobWrite
  /-- an indeterminate (never written) byte is used as a value -/
  | uninit
  /-- a null pointer is dereferenced -/
  | nullDeref
  /-- a variable length array with a size that is not positive -/
  | vlaSize
  /-- a variable length array larger than the available stack -/
  | stackOverflow
  /-- a negative `int` is passed as the size of a `memcpy` -/
  | negSize
  /-- signed integer overflow -/
  | intOverflow
  /-- an object is accessed through a pointer to a struct of another kind -/
  | typeConfusion
  /-- access to a block that is not allocated (any more) -/
  | useAfterFree
  /-- `free` of something that is not an allocated block -/
  | badFree
deriving DecidableEq, Repr

/-- Outcome of running a C function: a value, undefined behaviour, `exit(1)`, or no result. -/
inductive Res (α : Type) where
  | ok (a : α)
  | ub (k : UB)
  /-- the process was terminated by `exit(1)` (src/modules/tag.c:97) -/
  | exit
  /-- a loop did not finish (shown to be unreachable) -/
  | diverge
deriving DecidableEq, Repr

namespace Res

@[inline] def bind {α β : Type} (x : Res α) (f : α → Res β) : Res β :=
  match x with
  | .ok a => f a
  | .ub k => .ub k
  | .exit => .exit
  | .diverge => .diverge

instance : Monad Res where
  pure := .ok
  bind := Res.bind

-- Proved by `Eq.trans rfl rfl`, so that `simp` rewrites with them instead of leaving a definitional
-- unfolding of whole functions to the kernel.
@[simp] theorem bind_ok {α β : Type} (a : α) (f : α → Res β) : (Res.ok a >>= f) = f a := by
  exact Eq.trans rfl rfl
@[simp] theorem bind_ub {α β : Type} (k : UB) (f : α → Res β) : ((Res.ub k : Res α) >>= f) = .ub k := by
  exact Eq.trans rfl rfl
@[simp] theorem bind_exit {α β : Type} (f : α → Res β) : ((Res.exit : Res α) >>= f) = .exit := by
  exact Eq.trans rfl rfl
@[simp] theorem bind_diverge {α β : Type} (f : α → Res β) : ((Res.diverge : Res α) >>= f) = .diverge := by
  exact Eq.trans rfl rfl
@[simp] theorem pure_eq {α : Type} (a : α) : (pure a : Res α) = .ok a := by
  exact Eq.trans rfl rfl

theorem bind_eq_ok {α β : Type} {x : Res α} {f : α → Res β} {b : β} :
    (x >>= f) = .ok b ↔ ∃ a, x = .ok a ∧ f a = .ok b := by
  cases x <;> simp

end Res

/-- A byte of memory: a value, or indeterminate (fresh from `malloc`, an automatic array, or past the end of a
short read). -/
abbrev MByte := Option UInt8

/-- A memory object, or what a `char*` gives access to: the bytes from the pointer to the end of its object. -/
abbrev Bytes := List MByte

/-- Defined bytes as memory contents. -/
def ofB (l : List UInt8) : Bytes := l.map some

/-- Parameters of the platform the library runs on. -/
class Platform where
  /-- Does `memcmp` stop at the first difference (`true`), or may it access all `n` bytes of both objects (`false`,
  the reading of the C standard under which a one-byte object may not be compared with a two-byte one)? -/
  memcmpLenient : Bool
  /-- Largest variable length array that fits on the stack. -/
  stack : Nat
  /-- Is `char` a signed type (as on x86), or an unsigned one (as on ARM)? -/
  charSigned : Bool

/-- Load one `char`: the byte must be determinate. -/
def load : MByte → Res UInt8
  | some b => .ok b
  | none => .ub .uninit

/-- `memcmp(lit, p, strlen(lit)) == 0` where `lit` is a literal; stops at the first difference. -/
def memcmpSeq (p : Bytes) (lit : List UInt8) : Res Bool :=
  match lit, p with
  | [], _ => .ok true
  | _ :: _, [] => .ub .oobRead
  | l :: ls, b :: bs => do
    let v ← load b
    if v = l then memcmpSeq bs ls else .ok false

/-- `memcmp(lit, p, n) == 0` on a literal of `n` bytes. Unless the platform's `memcmp` is lenient, all `n` bytes of
`p` must be inside the object and determinate. -/
def memcmpEq [Platform] (p : Bytes) (lit : List UInt8) : Res Bool :=
  if Platform.memcmpLenient then memcmpSeq p lit
  else if p.length < lit.length then .ub .oobRead
  else if none ∈ p.take lit.length then .ub .uninit
  else .ok (p.take lit.length == ofB lit)

/-- Source side of `memcpy(dst, p, n)`: the `n` bytes copied (indeterminate bytes may be copied). -/
def memcpySrc (p : Bytes) (n : Int) : Res Bytes :=
  if n < 0 then .ub .negSize
  else if (p.length : Int) < n then .ub .oobRead
  else .ok (p.take n.toNat)

/-- `char a[n]` in automatic storage. -/
def vla [Platform] (n : Int) : Res Unit :=
  if n ≤ 0 then .ub .vlaSize
  else if (Platform.stack : Int) < n then .ub .stackOverflow
  else .ok ()

/-- Contents of an array of `n` bytes (automatic, or fresh from `malloc`) after `data` was copied to its start. -/
def intoArray (n : Int) (data : Bytes) : Bytes :=
  data ++ List.replicate (n.toNat - data.length) none

/-- Result of signed `int` arithmetic: undefined when not representable in 32 bits. -/
def ck (n : Int) : Res Int :=
  if -2147483648 ≤ n ∧ n ≤ 2147483647 then .ok n else .ub .intOverflow

/-- Conversion to `unsigned int` (reduction modulo 2^32). -/
def u32 (n : Int) : Nat := (n % 4294967296).toNat

/-- Conversion from `unsigned int` to `int` (implementation-defined; two's complement as on all targets). -/
def toInt32 (n : Nat) : Int :=
  if n % 4294967296 < 2147483648 then (n % 4294967296 : Nat) else (n % 4294967296 : Nat) - 4294967296

/-- Conversion of an `int` to `char` (the byte stored). -/
def toChar (n : Int) : UInt8 := UInt8.ofNat (n % 256).toNat

/-- Conversion of a `char` to `int`: bytes from 128 on are negative if `char` is signed. -/
def charToInt [Platform] (b : UInt8) : Int :=
  if b.toNat < 128 then b.toNat else if Platform.charSigned then (b.toNat : Int) - 256 else b.toNat

end Id3

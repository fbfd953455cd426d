/-!
# Machine model

Results of Rust computations, the build configuration, checked and wrapping integer arithmetic and
byte arrays. Everything here is executable.
-/

namespace Zerocaf

/-- Outcome of a Rust computation: a value, a panic, or an infinite loop. -/
inductive Res (α : Type) where
  | ok (a : α)
  | panic
  | diverge
deriving DecidableEq, Repr

namespace Res

/-- Sequencing: panics and divergence propagate. -/
@[inline] protected def bind {α β : Type} (x : Res α) (f : α → Res β) : Res β :=
  match x with
  | ok a => f a
  | panic => panic
  | diverge => diverge

instance : Monad Res where
  pure := ok
  bind := Res.bind

/- The proofs below avoid the bare term `rfl` so that `simp` applies them as rewriting steps, which keeps
the kernel from comparing large programs by unfolding. -/
@[simp] theorem ok_bind {α β : Type} (a : α) (f : α → Res β) : (ok a >>= f) = f a :=
  Eq.trans (b := f a) (by rfl) (Eq.refl _)
@[simp] theorem panic_bind {α β : Type} (f : α → Res β) : ((panic : Res α) >>= f) = panic :=
  Eq.trans (b := panic) (by rfl) (Eq.refl _)
@[simp] theorem diverge_bind {α β : Type} (f : α → Res β) :
    ((diverge : Res α) >>= f) = diverge :=
  Eq.trans (b := diverge) (by rfl) (Eq.refl _)
@[simp] theorem pure_eq {α : Type} (a : α) : (pure a : Res α) = ok a :=
  Eq.trans (b := ok a) (by rfl) (Eq.refl _)
@[simp] theorem ok_inj {α : Type} (a b : α) : (ok a = ok b) = (a = b) := by
  simp

end Res

/-- Build configuration and loop budget. `debug` is the overflow-checking profile; the release profile
has `overflow-checks = false` (`Cargo.toml`, `[profile.release]`). `fuel` is the number of iterations
granted to each `while` loop before the model reports `diverge`. -/
structure Cfg where
  debug : Bool
  fuel : Nat
deriving Repr, DecidableEq

/-- Checked `u64` result: exact if in range, otherwise panic (debug) or wrap (release). -/
def chk64 (c : Cfg) (n : Nat) : Res Nat :=
  if n < 2 ^ 64 then .ok n else if c.debug then .panic else .ok (n % 2 ^ 64)

/-- Checked `u128` result: exact if in range, otherwise panic (debug) or wrap (release). -/
def chk128 (c : Cfg) (n : Nat) : Res Nat :=
  if n < 2 ^ 128 then .ok n else if c.debug then .panic else .ok (n % 2 ^ 128)

/-- Checked `u64` subtraction. -/
def csub64 (c : Cfg) (a b : Nat) : Res Nat :=
  if b ≤ a then .ok (a - b) else if c.debug then .panic else .ok (a + 2 ^ 64 - b)

/-- Checked `i8` result: exact if in `[-128, 127]`, otherwise panic (debug) or wrap (release). -/
def chkI8 (c : Cfg) (n : Int) : Res Int :=
  if -128 ≤ n ∧ n ≤ 127 then .ok n else if c.debug then .panic else .ok ((n + 128) % 256 - 128)

/-- `u8 as i8` (two's complement reinterpretation), for an argument below 256. -/
def u8AsI8 (n : Nat) : Int := if n < 128 then (n : Int) else (n : Int) - 256

/-- `u64::wrapping_sub`, for arguments below `2^64`. -/
def wsub64 (a b : Nat) : Nat := (a + 2 ^ 64 - b) % 2 ^ 64

/-- `u64::wrapping_mul`. -/
def wmul64 (a b : Nat) : Nat := (a * b) % 2 ^ 64

/-- `u64 << k` for `k < 64`. Bits shifted out are lost in both profiles. -/
def shl64 (a k : Nat) : Nat := (a <<< k) % 2 ^ 64

/-- `(1u64 << 52) - 1`. -/
def mask52 : Nat := 2 ^ 52 - 1

/-- `u128 as u64`. -/
def lo64 (a : Nat) : Nat := a % 2 ^ 64

/-- `assert!(b)`. -/
def rassert (b : Bool) : Res Unit := if b then .ok () else .panic

/-- `Option::unwrap`. -/
def unwrap {α : Type} (o : Option α) : Res α :=
  match o with
  | some a => .ok a
  | none => .panic

/-- `[u8; 32]`. -/
abbrev Bytes32 := Vector UInt8 32
/-- `[u8; 64]`. -/
abbrev Bytes64 := Vector UInt8 64

/-- Five limbs: the common representation of `FieldElement(pub [u64; 5])`
(`src/backend/u64/field.rs:32`) and `Scalar(pub [u64; 5])` (`src/backend/u64/scalar.rs:27`).
Limbs are natural numbers; the arithmetic on them keeps to the `u64` range explicitly. -/
@[ext] structure L5 where
  l0 : Nat
  l1 : Nat
  l2 : Nat
  l3 : Nat
  l4 : Nat
deriving DecidableEq, Repr

/-- `[u128; 9]`, the double-width product. -/
@[ext] structure W9 where
  w0 : Nat
  w1 : Nat
  w2 : Nat
  w3 : Nat
  w4 : Nat
  w5 : Nat
  w6 : Nat
  w7 : Nat
  w8 : Nat
deriving DecidableEq, Repr

end Zerocaf

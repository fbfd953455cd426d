import Verif.Model.Ristretto

/-!
# Model: constants that no function of the library reads, byte slices, documented examples

* `src/backend/u64/constants.rs`: `INV_RR`, `INV_SQRT_A`, `MINUS_SQRT_A`.
* `src/edwards.rs`, `src/ristretto.rs`: compressed points from slices, equality and indexing of them.
* `src/lib.rs`, `examples/basic_ops.rs`: the point and the random scalar of the usage example.
* `tools/src/main.rs`: the conversions between decimal numbers and limbs, and the bitwise Montgomery
  reduction.
-/

namespace Zerocaf

namespace Misc

/-- `INV_RR`, `constants.rs:64-70`. -/
def INV_RR : FE :=
  ⟨2210115751650724, 3809421927348411, 2357176729341513, 3420097284349172, 7483527818736⟩

/-- `INV_SQRT_A`, `constants.rs:105-111`. -/
def INV_SQRT_A : FE :=
  ⟨2099929430230996, 1464742363261928, 3309265759432790, 2285299817698826, 10215362715769⟩

/-- `MINUS_SQRT_A`, `constants.rs:114-120`. -/
def MINUS_SQRT_A : FE :=
  ⟨2099929430230996, 1464742363261928, 3309265759432790, 2285299817698826, 10215362715769⟩

/-- `copy_from_slice` of the standard library into an array of 32 bytes: panics if the lengths differ. -/
def copyFromSlice (bytes : List UInt8) : Res Bytes32 :=
  if h : bytes.length = 32 then .ok ⟨bytes.toArray, by simpa using h⟩ else .panic

/-- `CompressedEdwardsY::from_slice`, `edwards.rs:296-302`. -/
def edFromSlice (bytes : List UInt8) : Res Bytes32 := copyFromSlice bytes

/-- `CompressedRistretto::copy_from_slice`, `ristretto.rs:82-86`. -/
def risFromSlice (bytes : List UInt8) : Res Bytes32 := copyFromSlice bytes

/-- `ConstantTimeEq for CompressedEdwardsY`, `edwards.rs:213-217`, and for `CompressedRistretto`,
`ristretto.rs:54-58`: the slice comparison of `subtle`, which accumulates over all bytes. -/
def compressedCtEq (a b : Bytes32) : Bool :=
  (Vector.zipWith (fun x y => decide (x = y)) a b).toList.foldl (· && ·) true

/-- `Index<usize>` of `CompressedEdwardsY`, `edwards.rs:227-232`, and of `CompressedRistretto`,
`ristretto.rs:47-52`. -/
def index (b : Bytes32) (i : Nat) : Res UInt8 := unwrap b[i]?

/-- `Default for CompressedEdwardsY`, `edwards.rs:246-251`. -/
def compressedDefault : Bytes32 := Ed.compressedIdentity

/-- The point `G` of the usage example, `lib.rs:122-127` and `examples/basic_ops.rs:21-38`. -/
def exampleG : EdPoint where
  X := ⟨23, 0, 0, 0, 0⟩
  Y := ⟨1664892896009688, 132583819244870, 812547420185263, 637811013879057, 13284180325998⟩
  Z := ⟨1, 0, 0, 0, 0⟩
  T := ⟨4351986304670635, 4020128726404030, 674192131526433, 1158854437106827, 6468984742885⟩

/-- `rand_scalar_generation` of the usage example, `lib.rs:137-150` and `examples/basic_ops.rs:48-64`: the
generator fills the first 31 bytes. -/
def exampleScalar (rnd : Vector UInt8 31) : Res Sc := Scalar.fromBytes (rnd ++ (#v[0] : Vector UInt8 1))

/-- The limbs of `to_scalar_base_52`, `tools/src/main.rs:86-100`. The decimal string is modelled by the
number; strings that are no numbers panic in the tool. -/
def toBase52 (n : Nat) : L5 :=
  let r0 := n % 4503599627370496
  let n := n / 4503599627370496
  let r1 := n % 4503599627370496
  let n := n / 4503599627370496
  let r2 := n % 4503599627370496
  let n := n / 4503599627370496
  let r3 := n % 4503599627370496
  let n := n / 4503599627370496
  ⟨r0, r1, r2, r3, n % 4503599627370496⟩

/-- The number printed by `from_scalar_base_52`, `tools/src/main.rs:103-110`. -/
def fromBase52 (a : L5) : Nat :=
  0 + 4503599627370496 ^ 0 * a.l0 + 4503599627370496 ^ 1 * a.l1 + 4503599627370496 ^ 2 * a.l2 +
    4503599627370496 ^ 3 * a.l3 + 4503599627370496 ^ 4 * a.l4

/-- The loop of `Montgomery::reduce`, `tools/src/main.rs:148-151`. -/
def montReduceLoop (m : Nat) : Nat → Nat → Nat
  | 0, a => a
  | n + 1, a => montReduceLoop m n ((if a % 2 = 0 then a else a + m) >>> 1)

/-- The bit length of a number (`BigUint::bits`). -/
def bits (m : Nat) : Nat := if m = 0 then 0 else m.log2 + 1

/-- The structure that `Montgomery::new` builds, `tools/src/main.rs:132-144`. -/
structure Mont where
  m : Nat
  rrm : Nat
  n : Nat

/-- `Montgomery::new`, `tools/src/main.rs:132-144`: an error for even moduli. -/
def Mont.new (m : Nat) : Option Mont :=
  if m % 2 = 0 then none else some ⟨m, (1 <<< (bits m * 2)) % m, bits m⟩

/-- `Montgomery::reduce`, `tools/src/main.rs:146-154`. -/
def Mont.reduce (s : Mont) (a : Nat) : Nat :=
  let r := montReduceLoop s.m s.n a
  if r ≥ s.m then r - s.m else r

end Misc
end Zerocaf

# Formal model of dusk-zerocaf in Lean 4

## Layout

| Path | Content |
| --- | --- |
| `lean/Verif/Machine.lean` | result type (value / panic / divergence), build configuration, checked and wrapping machine arithmetic, byte arrays |
| `lean/Verif/Model/*.lean` | executable model of the Rust code, function by function, each definition citing file and lines in `/repo` |
| `lean/Verif/Spec/*.lean` | the independent specification: integers mod p and mod L, quadratic residues, the affine twisted Edwards curve and its group law, little-endian integers, signed-digit expansions |
| `lean/Verif/Proof/*.lean` | helper lemmas and refinement proofs |
| `lean/Verif/Props/*.lean` | the property theorems, one section per property id, with non-vacuity examples |
| `lean/Verif/Vectors.lean` | the test vectors of the repository's unit tests, checked on the model by kernel evaluation |
| `properties.jsonl`, `MANIFEST.json` | the properties and their status |
| `seeded/LOG.jsonl` | mutation tests of the theorems |

## Trusted base

* Lean's kernel (4.33.0) and the three standard axioms `propext`, `Quot.sound`,
  `Classical.choice`. No other axioms, no `sorry`, no `native_decide`, no `bv_decide`.
* The faithfulness of `Verif/Model` to the Rust text. Nothing here executes the Rust code.
* External crates: `subtle` (`Choice` is a `Bool`, `ct_eq` is equality of byte arrays, conditional
  select is `if`), `rand` (a generator is an arbitrary sequence of byte blocks;
  `gen_range(0u8, 1u8)` of rand 0.7 is always 0), `curve25519-dalek`
  (`from_canonical_bytes` accepts exactly the byte strings below
  2^252 + 27742317777372353535851937790883648493; `from_bytes_mod_order` reduces modulo that number;
  the operators compute modulo that number with reduced results).

## Modelling decisions

* A Rust computation is a term of `Res α`: `ok a`, `panic` or `diverge`. Every model function takes a
  configuration `c : Cfg` with `c.debug : Bool` (overflow checks on or off, as in
  `Cargo.toml [profile.release] overflow-checks = false`) and `c.fuel : Nat`.
  A `while` loop gets `c.fuel` iterations and yields `diverge` when they are used up, so
  "for every fuel >= N the result is `ok`" is termination, and "for every fuel the result is `diverge`"
  is non-termination.
* `u64`/`u128` values are natural numbers. Additions and multiplications that Rust checks go through
  `chk64`/`chk128`: in range the exact value, out of range `panic` (debug) or reduction mod 2^64 / 2^128
  (release). A sum of several terms is checked once on its total. Partial sums of non-negative terms overflow only if the
  total does, and wrapping is associative, so this is the same function. `wrapping_*`, shifts, masks
  and casts are explicit.
* A `FieldElement` or `Scalar` is a structure of five natural number limbs. Two predicates recur:
  `WF` (every limb < 2^52) and `Canonical` (`WF` and value below p, resp. L). Elements with larger limbs
  can be built through the public tuple field; what holds for them is C100.
* Fixed loops `for i in 0..5` are unrolled. Loops over 32, 249, 250, 256 positions are recursive functions.
* `Choice` is `Bool`. `[u8; N]` is `Vector UInt8 N`.
* `Debug`, `Display` and access to limbs by index are in Model/Text.lean. The by-value/by-reference duplicates of
  operators that only forward are not modelled separately.
* Control flow is modelled in Model/Leak.lean, LeakDigits.lean, LeakRoots.lean,
  LeakPoints.lean, LeakOrder.lean and LeakPrograms.lean as a list of events; of memory addresses only the
  indices into the table of window_naf_mul are recorded. Instruction timing, caches, the compiler and the
  branch-freeness of `subtle` are outside; `subtle`'s selects and comparisons count as single steps.
  Erasure proves that the recorded programs compute the same values; that every branch of the Rust text has its event is checked by reading only.
* Not modelled: timing and memory behaviour beyond that, `unimplemented!()` functions other than as immediate panics
  (`from_bytes_wide`, `to_montgomery`, `to_edwards`), the benchmarks
  (`benchmarks/dusk_benchmarks.rs` calls `old_half`, which no source file defines, so it does not compile), and
  `random_prime` of the Python scripts, which nothing calls and whose modules are not imported. Of `examples/` and `tools/` what Model/Misc.lean, Model/Tools.lean, Model/ToolText.lean and Model/PyText.lean cite is modelled (all tools except `random_prime`), of `sage_codes/` the functions in Model/Sage.lean and Model/SafeCurve.lean.

## How the proofs go

1. Limb level: each field/scalar primitive is shown to succeed and to have the right integer value
   (carry and borrow chains by linear arithmetic; Montgomery reduction by telescoping the carry equations).
2. p and L are proved prime with Pratt certificates (Lucas test), evaluated by kernel computation on naturals.
3. Each canonical element is the encoding `enc x` of a unique `x : ZMod p`; primitives become field operations under
   `enc`, so the point formulas reduce to algebra in a field.
4. `pow`, `inverse` (Savas-Koc), `mod_sqrt` (Tonelli-Shanks) by loop invariants with explicit iteration bounds.
5. The curve: completeness from d non-square and -1 square; associativity by polynomial identity modulo the curve equations;
   order 8L from an explicit point of order 8L and the bound #E <= 2p < 16L.
6. Points: representation predicate between extended/projective limbs and affine group elements; every operation
   refines the group operation.
7. Ristretto: even subgroup = {1 + d y^2 is a square} = 2E; encode/decode by coset analysis.

## Properties

Each entry: what is modelled and how it is proved. Negative parts (the code contradicts its documentation)
are proved as theorems with a concrete witness.

* **C01** Field addition is addition mod p. Limb model of Add (carry chain, then Sub of p). Linear arithmetic on limbs.
* **C02** Field subtraction is subtraction mod p. Limb model of Sub (borrow chain, conditional add). Linear arithmetic, general WF version first.
* **C03** Field negation is the additive inverse. Neg = 0 - a in the model; corollary of C02.
* **C04** Field multiplication is multiplication mod p. mul_internal + montgomery_reduce twice, all u128 sums checked. Telescoped carries; result < p because RR_FIELD < p.
* **C05** Field squaring agrees with multiplication. square_internal modelled separately; shown to produce the same nine words as mul_internal a a.
* **C06** Modular halving. half = multiplication by the constant (p+1)/2; corollary of C04.
* **C07** Plain halving shifts by one bit. Right shift over limbs; value/2 by linear arithmetic. Odd input witness for the missing panic is part of the general statement.
* **C08** Field exponentiation. Loop with fuel; invariant res * base^expon; iteration count <= 260.
* **C09** Field inversion. Phase-1 loop with fuel; invariants a*r = -u*2^k, a*s = v*2^k mod p, gcd(u,v)=1, u*v bounded so k <= 513; Montgomery correction.
* **C10** Field division. Corollary of C09 and C04; both operators modelled.
* **C11** Quadratic residue test. pow by (p-1)/2, Euler criterion from Mathlib.
* **C12** Modular square root: existence and correctness. Tonelli-Shanks loop modelled literally; a^q in {1,-1} for squares since p = 5 mod 8.
* **C13** Modular square root: the sign choice. Same theorem gives the two roots as r and p - r; witness by evaluating the root of a concrete square.
* **C14** sqrt_ratio_i contract. Composition of Div, legendre_symbol, mod_sqrt, conditional negate.
* **C15** inv_sqrt contract. Instance of C14.
* **C16** Sign convention. Lexicographic comparison with POS_RANGE; order lemma C17.
* **C17** Ordering is numeric. Lexicographic limb comparison equals numeric comparison, linear arithmetic.
* **C18** Field byte encoding. Byte shuffles modelled bitwise; digits recombined arithmetically.
* **C19** Field equality is representation equality. Equality of byte arrays plus C18; witness from_bytes(p).
* **C20** Unsigned conversions. Direct.
* **C21** Powers of two. Case split on the limb index.
* **C22** Random field elements and scalars are always canonical. Generator output is an arbitrary byte vector; masks applied; value bounds from C18. Exact preimage counts by the bijection between byte strings and numbers below 2^256 (Props/Exact.lean).
* **C23** Conversion to and from curve25519 scalars. dalek scalar modelled as canonical byte string; corollary of C18.
* **C24** Debug and release builds agree on canonical inputs. Every primitive theorem holds for both values of c.debug with the same result; stated as equality. The point functions not in C89 are in `Props/Builds.lean`.
* **C25** Scalar addition. As C01 with modulus L.
* **C26** Scalar subtraction and negation. As C02/C03 with modulus L.
* **C27** Scalar multiplication and squaring. As C04/C05 with modulus L.
* **C28** Scalar halving and shifting. As C06/C07; Shr by induction on the amount.
* **C29** Scalar exponentiation. As C08 with the mixed halving.
* **C30** Scalar byte decoding. Word loads modelled bitwise; assert is the panic branch.
* **C31** Scalar bits. Nested loop over bytes and bits.
* **C32** Non-adjacent form. Loop with fuel and index; invariant value = digits + 2^i * k.
* **C33** Windowed non-adjacent form. Same invariant with width; bound k < 2^(250-i) keeps k + 2^(w-1) below L for w <= 5. Width 6 counterexample by kernel evaluation.
* **C34** Degenerate window widths. Loop analysis: k+1 halving never reaches zero, index 256 panics.
* **C35** Conversion from i8. i8 as an integer in [-128,127]; abs and neg with overflow behaviour.
* **C36** Residues mod powers of two. Direct; all shift amounts covered.
* **C37** Edwards addition is complete and closed. Representation predicate; completeness lemma; field algebra.
* **C38** Point addition forms a commutative group. Affine group instance on the curve; associativity by polynomial division certificate; transported to the model.
* **C39** Doubling. Field algebra on representatives.
* **C40** Negation and subtraction. Field algebra on representatives.
* **C41** Projective addition agrees with extended addition. Field algebra on representatives.
* **C42** Point equality is equality of the represented points. Normalisation by inverse; uniqueness of canonical limbs.
* **C43** Validity check of affine points. Field algebra.
* **C44** Validity check of projective and extended points. Field algebra; witness (0,0,0).
* **C45** Scalar multiplication. Loop invariant Q + n*N over the group.
* **C46** Scalar arithmetic is compatible with point multiplication. From C45, C47 and group theory.
* **C47** The base point has prime order L. Pratt certificate; L*B computed in the kernel; prime order.
* **C48** Left-to-right binary multiplication. Loop over 249 bits; witness 2^249.
* **C49** NAF multiplication. C32 plus Horner evaluation in the group.
* **C50** Windowed NAF base point multiplication. C33 with w=2; witness scalar 3 width 3. For widths 2 to 5 the loop computes N B with N = 2n - S, S the sum of sgn(d_i) 2^i; the digits' spacing gives 0 <= S <= 2n - 1, so N = n mod L only if S = n, and then every digit is its own sign (`C50_exact`). Multiples of B in one class are one point because L is odd, which carries this over to `==` (`C50_observed`, `C50_only_width_two_observed`).
* **C51** Cofactor and power-of-two multiplication. Corollary of C45.
* **C52** Constructing a point from y. Corollary of C12 plus non-vanishing of d y^2 + 1.
* **C53** Compress then decompress. From C12, C18, C52.
* **C54** Edwards decompression is malleable. The masked byte is the same; exact condition and counts in Props/Exact.lean.
* **C55** Edwards decompression soundness. From C52.
* **C56** Curve order. Explicit point of order 8L and counting bound.
* **C57** coset4. Evaluate the curve equation on the sum with (1,0).
* **C58** Ristretto equality. x and y numerators of P - Q.
* **C59** Ristretto decoding then encoding. Coset normal form.
* **C60** Ristretto encoding then decoding. Coset normal form.
* **C61** Ristretto encodings identify group elements. From C58-C60.
* **C62** Ristretto decoding rejects bad encodings. Positivity check on the integer value.
* **C63** Ristretto decoding yields even-subgroup curve points. Field algebra.
* **C64** Elligator map is total and valid. Field algebra with case analysis on the square test; non-vanishing of Z from non-squareness.
* **C65** from_uniform_bytes is total and valid. From C64 and C37.
* **C66** Ristretto operations respect equality. Quotient by a subgroup.
* **C67** The Ristretto group has exactly L elements. Cyclic group counting.
* **C68** Ristretto validity check. From C45; witness.
* **C69** Base point encodings. Kernel evaluation combined with the general theorems.
* **C70** Table of odd multiples. Kernel evaluation over the whole table.
* **C71** Montgomery point equality. From C19.
* **C72** Random points. Recursion with fuel over generator blocks. Termination with probability one is C99.
* **C73** What control flow reveals. The functions are run in a monad that records every statement boundary, branch outcome and overflow check (Model/Leak.lean); erasing the record gives the model (Proof/Leak.lean). Independence by structural induction (LeakCt), what is revealed by decoding the record (LeakInv).
* **C74** Negating a compressed Edwards point. From C52, C53 and C55.
* **C75** Ristretto points are a module over the scalars. Even classes have exponent L; scalar theorems C25-C27.
* **C76** Key agreement through encodings. Composition of C60, C61, C66.
* **C77** Scalar laws on Edwards points with torsion. Witness scalars L - 1 and 1.
* **C78** Cofactor multiplication clears torsion. Curve order 8L, cyclic group.
* **C79** Edwards encodings are injective. The sign bit separates the two points with one y.
* **C80** Elligator computes the RFC 9496 map. Specification `RfcMap` in Spec/Elligator.lean, independent of the model.
* **C81** Elligator is at most 16 to 1. Each branch of the map is inverted by a fractional linear equation in r.
* **C82** Arithmetic on unreduced field elements. Exact integer results of Add and Sub on limbs; phase 1 of the inversion on multiples of p ends with u = p; Tonelli-Shanks never reaches 1.
* **C83** Windowed NAF with wide windows. C33's loop invariant with the exact range of the remainder; wrong digits appear only when k + |digit| reaches L.
* **C84** Published constants satisfy their documented equations. Kernel evaluation on naturals; Model/Misc.lean has the constants no function reads.
* **C85** Compressed points as byte containers. `copy_from_slice` of the standard library as a length check.
* **C86** Unimplemented functions panic. The bodies are `unimplemented!()`; the theorem records that no argument avoids it.
* **C87** Documented examples. Curve equation evaluated modulo p; order of the base point from C47.
* **C90** Number tools. Loop invariant 2^n r = a mod m with r bounded by (a + m 2^n)/2^n. Decimal strings are modelled by numbers.
* **C88** The Montgomery and Weierstrass forms in the README. The birational map is shown to be a homomorphism to Mathlib's `WeierstrassCurve.Affine.Point` by cases (torsion, tangent, chord), injective, and onto because A-2 is a non-square.
* **C89** Point functions on arbitrary reduced coordinates. Formulas evaluated on `enc` of arbitrary residues; loops by induction for any operations that return a build-independent value.
* **C91** Signed digit expansions are unique and shortest. Least digit determined modulo 2^w, induction on the length; weight function on integers with |w(k+1)-w(k)| <= 1.
* **C92** Distribution of hashing to the group. From C81 by counting pairs; reach by the Cauchy-Davenport theorem in Z/L. Full surjectivity is not claimed.
* **C93** Ristretto is a group of prime order L, as an interface. The even classes modulo torsion are cyclic of prime order L, generated by the base point.
* **C94** Protocols over the library are correct. Linear algebra over Z/L through C93. Hash functions of the protocols are outside the model; challenges are arbitrary scalars.
* **C95** Number of point operations in scalar multiplication. The generic multiplication functions are run on formal expressions; a simulation lemma relates them to the real points. The expression contains the operations the result depends on; the operator also performs one final doubling whose result is dropped.
* **C96** The almost inverse tools. Invariants u s + v r = p, r x = -u 2^k, s x = v 2^k mod p, gcd(u,v) constant, u v at least halves, u + v at most halves. Python integers are modelled by naturals; what the scripts print is in C127.
* **C97** The square root tool. Invariants x^2 = a t, t^(2^(m-1)) = 1, c^(2^(m-1)) = -1 in the field of p elements, for any prime.
* **C98** Base-51 and point tools. Linear arithmetic on the digits.
* **C99** How random points and encodings are distributed. The points are counted by the group order 8L and the pairs (x, y), (-x, y); the count of y below 2^251 uses the symmetry y, -y. The probability is the product measure of Mathlib over uniform byte strings (`Props/RandomPoint.lean` sums the geometric series over the number of draws); the generator itself is not modelled.
* **C100** Limbs larger than 52 bits. The reduction is proved again with words up to 5*2^124 and a value below 2^520.
* **C101** Montgomery form. Congruences modulo p and L; both are coprime to 2^260.
* **C102** The documented security criteria. Points of the curve and its twist are counted together through the quadratic character; primes by Pratt certificates; t^2-4p is factored completely.
* **C103** Curve choices and worked examples in the documents. Doubling is recognised by a square condition; the concrete orders are computed by the kernel on numbers. The claim that 505186 is the least suitable A is not proved: it needs the orders of 126296 curves.
* **C104** Points with unreduced coordinates. Congruent tuples are shown to give the same limbs, not only the same point (`Props/Unreduced.lean`). The failure of Ristretto compression is one evaluated case in each build.
* **C105** Scalars that are not below L. The digit loops are unfolded once; after one step the remaining scalar is canonical again (`Proof/ScalarUnreduced.lean`). Larger scalars are in C122.
* **C106** Documented costs in field operations. The text of the functions is repeated with a counting monad (`Model/Count.lean`); forgetting the count gives the model. Multiplications by constants are told apart by hand in that text.
* **C107** What control flow of digit expansions and powers reveals. `Model/LeakDigits.lean` adds the digit expansions, the multiplications that use them and the power of scalars to the recorded functions; table indices are events. The digits are specified in `Spec/Digits.lean`; `Proof/LeakDigits.lean` decodes the record round by round.
* **C108** What control flow of square roots, encodings and the map to the group reveals. `Model/LeakRoots.lean` adds sign, division, square roots, encodings, decoding and the Elligator map to the recorded functions. `Proof/LeakSync.lean` defines what it means for two runs to stay in step as long as their records agree, with a rule for each construct; `Proof/LeakEnc.lean` applies it to the encodings and, for the converse at square roots, compares runs on elements of one class. The branches inside the crate `subtle` and the comparison of byte slices are as in C73.
* **C109** Contracts of the equality and order traits. `Props/Traits.lean` checks the laws the traits of Rust ask for on all values; the failures are stated with witnesses.
* **C110** What the remaining point functions reveal through control flow. `Model/LeakPoints.lean` extends the record of control flow to the rest of the point functions; statements are equivalences wherever the record is exactly described.
* **C111** Small subgroups. `Props/SmallOrder.lean` gives the exact information a multiple carries; the explicit bytes are a point of order eight found by hand and checked by the kernel.
* **C112** Printed forms and limb access. `Model/Text.lean` writes the texts as lists of characters; `Props/Text.lean` parses them from the left. The alternate form `{:#?}` is modelled for the two types that derive `Debug`, with the commas at line ends that current versions of the standard library print (early ones left out the last); the handwritten implementations ignore the flag.
* **C113** How long the operations run. The `fuel` of the model bounds the rounds of each loop, so the theorems in `Props/Rounds.lean` state from which fuel on an operation returns and that below it the outcome is `diverge`. `Proof/Rounds.lean` reproves the loops with this in view. Scalar exponents are canonical; scalars that multiply points are below 2^256.
* **C114** What roots, encodings, hashing and windowed multiplication cost. `Model/CountRoots.lean` continues the counting model of C106; `Forgets` in `Props/CountRoots.lean` is the statement that dropping the counts gives back the model. `Performs x n r` says that `r` returns and that `x`, which is `r` with counts, counts `n`. The operations inside an inversion are not counted; multiplications by constants are counted apart. The counts for encoding Ristretto points and for hashing are stated as lists of possible values.
* **C115** Every program written against the library computes what it says. `Spec/Programs.lean` has the types, 111 operations, the programs and their meaning, written with residues, points of the curve and logarithms in the Ristretto group only; `Model/Programs.lean` runs the same programs on the model. `Means t v d` in `Props/Programs.lean` says which values of the library stand for which mathematical values: reduced limbs with the value, coordinates of the point, any point of the class. `Means` is unique and total on the mathematical side. Meanings of encodings and of the hash are defined by what they have to satisfy (`RisCode`, `RfcMap`), not by the code. Random generation is an operation on the bytes the generator gave, and the digit expansions are described by signed residues (`Spec/Digits.lean`). Operations on unreduced values, printing and serialization are not operations of this language, nor are `coset4`, whose second entry is no point (C57), and the validity of a Ristretto point, which depends on the representative (C68).
* **C116** Programs that branch on public data only do not leak secrets through control flow. `Model/LeakPrograms.lean` has the language, 61 calls with their recorded functions (`Op.run`) and their plain ones (`Op.plain`); the record of a program is that of the calls, its own branch and loop tests and the revealed values. `Low` says two values agree in their public parts. Secrets are assumed reduced, points need not lie on the curve. Left out because their branches do depend on the values (C73, C107): inversion, division, square roots, comparison `<`, decoding, point equality, compression, and multiplication by a secret scalar; a program may call them on public data. What C73 says on the limits of the record (branches only, no memory addresses or instruction timing) applies here too.
* **C117** The functions of the Sage scripts. Model in `Model/Sage.lean`. Python integers are `Int` with `%` and `//` rounding down; recursion and loops carry fuel and the theorems say how much is enough. `modular_sqrt` is modelled from the part of it that is in the file. Whether 505186 is the first coefficient the search accepts is not claimed; that needs the orders of about 126000 curves. The driver `verify` of `Safe Curve code` is in C123; what it checks of this curve is C102.
* **C118** What control flow of ordering, sign tests, decoding and random generation reveals. Record as in C73; model in `Model/LeakOrder.lean`. Comparison leaves its loop at the first limb that differs, from the top. Packing of bytes into limbs is straight-line code without branches and leaves no record.
* **C119** What random scalars hide. In `Props/Blinding.lean`. Probability is a count over the `2^256` strings of 32 bytes that the generator fills in; that the generator is uniform is the assumption. The protocol steps are defined there from the modelled operations; they are not in the code. The challenge of the prover is fixed before the nonce is drawn (honest verifier).
* **C120** Proving ownership of one of many keys. In `Props/Membership.lean`. The steps of the proof are defined there from the modelled operations; they are not in the code. How challenges are drawn, and that an owner draws the random scalars uniformly, is outside the model.
* **C121** The curve inside the scalars of Ristretto255. In `Props/Circuit.lean`. The arithmetic of `curve25519-dalek` scalars is an external contract (`Model/Dalek.lean`): reduced results modulo the same `p`. The equations are written for this property; they are not in the code. How an argument system flattens them is outside the model.
* **C122** Digit expansions of every scalar with 52-bit limbs. In `Props/DigitsAny.lean`, with the rule in `Spec/LostDigits.lean`. It takes in the scalars below `2L` of C105. Scalars with limbs above 52 bits are not covered.
* **C123** The safe curve script. In `Props/SafeCurve.lean`, with the script in `Model/SafeCurve.lean`. Hasse's bound is a hypothesis, as Mathlib has no proof of it; for this curve the number of points is known without it (C88).
* **C124** The verdict of the unit tests. The tests are in `Model/Tests.lean`, one definition each; assertions are `rassert`. Tests without loops are evaluated by the kernel with the loop budget left open (`Props/TestsField.lean`); the others follow from the theorems of the other properties and arithmetic with numbers (`Props/TestsEdwards.lean`, `Props/Tests.lean`). The two tests that need the `rand` feature take what the generator writes as an argument.
* **C125** Texts of the number tools. `Verif/Model/ToolText.lean` has the functions of `tools/src/main.rs` from text to text, `Verif/Spec/Numerals.lean` says what a numeral is. The parser and the byte functions of `num-bigint` 0.2, `u64::from_str` and the formatting of integers are written down from those crates, which are not in the repository; `modpow` is taken to be the power reduced. Texts of the Python scripts are in C127.
* **C126** Ristretto points outside the even subgroup. Complements C60 and C61, which cover the doubles. The point is described by the mathematical point its coordinates represent, as there; whether it is a double is `InEven` of `Verif/Spec/Ristretto.lean`. How many of the points that are not doubles have a decodable encoding is not counted.
* **C127** Texts of the Python scripts. `Verif/Model/PyText.lean` adds what is printed to the functions of C96 and C97; the facts about Python 2 it uses (decimal `str`, the `L` in `repr` of long integers, `print` with a newline) are stated there and are not in the repository. Fuel as in C96 and C97. For the committed root the order of the two roots is left open.
* **C128** Secret sharing (Shamir, Feldman) over the library. The steps are written in `Verif/Props/Sharing.lean` with the modelled operations, they are not in the code; the inverse is the power L - 2. Interpolation over a field is in `Verif/Proof/Interpolate.lean`, from Mathlib's Lagrange polynomials. The hiding claim counts coefficients; how close random coefficients are to uniform is C119.
* **C129** The proofs of Chaum and Pedersen and the check of many Schnorr proofs with random weights. The steps are written in `Verif/Props/EqualLogs.lean` with the modelled operations, they are not in the code. Challenges are given scalars; hashing to make them is outside.
* **C130** Range proofs from bit proofs in the style of Cramer, Damgård and Schoenmakers. The steps are written in `Verif/Props/Range.lean` with the modelled operations, they are not in the code. Challenges are given scalars; hashing to make them is outside.
* **C131** The argument of Bootle and others as used in Bulletproofs. The steps are written in `Verif/Props/InnerProduct.lean` with the modelled operations, they are not in the code. Vectors are trees of halves; challenges are given scalars, one per halving. Extraction is proved for one halving and gives an opening; that the extracted value is the inner product of the extracted vectors needs the generators to be independent and is not claimed.

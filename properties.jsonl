{"id": "C01", "title": "Field addition is addition mod p", "statement": "For canonical field elements a, b, `a + b` returns without panic, in debug and in release builds alike, the canonical element whose integer value is (a + b) mod p.", "quantifier": "every pair of canonical field elements, both build profiles", "why_tests_cant": "The input space has more than 2^250 elements; a test fixes a handful of values, and carries/borrows fail only on rare limb patterns.", "anchors": ["src/backend/u64/field.rs: Add"]}
{"id": "C02", "title": "Field subtraction is subtraction mod p", "statement": "For canonical a, b, `a - b` returns without panic the canonical element with value (a - b) mod p.", "quantifier": "every pair of canonical field elements, both build profiles", "why_tests_cant": "The input space has more than 2^250 elements; a test fixes a handful of values, and carries/borrows fail only on rare limb patterns.", "anchors": ["src/backend/u64/field.rs: Sub"]}
{"id": "C03", "title": "Field negation is the additive inverse", "statement": "For canonical a, `-a` is canonical and a + (-a) is zero; negating zero gives canonical zero (not p).", "quantifier": "every canonical field element, both build profiles", "why_tests_cant": "The input space has more than 2^250 elements; a test fixes a handful of values, and carries/borrows fail only on rare limb patterns.", "anchors": ["src/backend/u64/field.rs: Neg"]}
{"id": "C04", "title": "Field multiplication is multiplication mod p", "statement": "For any two field elements whose limbs are below 2^52 (this includes every value `from_bytes` can return, canonical or not), `a * b` does not panic or overflow and returns the canonical element with value (a * b) mod p.", "quantifier": "every pair of elements with 52-bit limbs, both build profiles", "why_tests_cant": "Montgomery reduction is a chain of 128-bit carries; an overflow or a missing final subtraction shows only for extreme limb combinations no sampled test reaches.", "anchors": ["src/backend/u64/field.rs: Mul, mul_internal, montgomery_reduce", "src/backend/u64/constants.rs: RR_FIELD, LFACTOR_FIELD"]}
{"id": "C05", "title": "Field squaring agrees with multiplication", "statement": "For any element with 52-bit limbs, `a.square()` returns exactly what `a * a` returns, the canonical a^2 mod p.", "quantifier": "every element with 52-bit limbs, both build profiles", "why_tests_cant": "The squaring path is separate code (doubled cross terms); agreement must hold on all limb patterns.", "anchors": ["src/backend/u64/field.rs: Square, square_internal"]}
{"id": "C06", "title": "Modular halving", "statement": "For any element with 52-bit limbs, `a.half()` is canonical and twice it is a (mod p).", "quantifier": "every element with 52-bit limbs", "why_tests_cant": "The input space has more than 2^250 elements; a test fixes a handful of values, and carries/borrows fail only on rare limb patterns.", "anchors": ["src/backend/u64/field.rs: Half", "src/backend/u64/constants.rs: INVERSE_MOD_TWO"]}
{"id": "C07", "title": "Plain halving shifts by one bit", "statement": "`half_without_mod` returns floor(a/2) for every element with 52-bit limbs, so it is exact halving for even inputs. The documented panic on odd inputs does not happen: an odd input is silently rounded down.", "quantifier": "every element with 52-bit limbs", "why_tests_cant": "Cross-limb bit transport has to be right at all limb boundaries simultaneously; and the documentation promises a panic that never happens.", "anchors": ["src/backend/u64/field.rs: half_without_mod"]}
{"id": "C08", "title": "Field exponentiation", "statement": "`a.pow(e)` terminates and returns the canonical element a^e mod p, where e is read as a plain integer (not reduced mod p-1), with 0^0 = 1.", "quantifier": "for all field elements and all exponents with 52-bit limbs, reduced or not", "why_tests_cant": "Termination and the loop invariant cover 2^252 exponents; tests try a few.", "anchors": ["src/backend/u64/field.rs: Pow"]}
{"id": "C09", "title": "Field inversion", "statement": "`a.inverse()` terminates and returns the canonical b with a*b = 1 mod p for every a that is not a multiple of p; on canonical zero it panics.", "quantifier": "every element with 52-bit limbs and value below 2^256 that is not a multiple of p; and zero", "why_tests_cant": "The number of loop iterations is data dependent (up to ~512) and the final exponent correction asserts a range; only a proof shows the assert cannot fire for any input.", "anchors": ["src/backend/u64/field.rs: inverse, inner_two_pow_k, montgomery_mul"]}
{"id": "C10", "title": "Field division", "statement": "`a / b` is a * b^-1 mod p, so (a / b) * b = a for b nonzero; dividing by zero panics, both for the by-reference and the by-value operator.", "quantifier": "every canonical a, b", "why_tests_cant": "Same as inversion: data-dependent loop over all divisors.", "anchors": ["src/backend/u64/field.rs: Div"]}
{"id": "C11", "title": "Quadratic residue test", "statement": "`legendre_symbol` answers 1 exactly for the elements that are squares mod p (zero included, contrary to the documented 0 case) and 0 exactly for non-squares.", "quantifier": "every canonical field element", "why_tests_cant": "Being a square is an existential statement over the whole field; tests check a few known residues.", "anchors": ["src/backend/u64/field.rs: legendre_symbol", "src/backend/u64/constants.rs: MINUS_ONE_HALF"]}
{"id": "C12", "title": "Modular square root: existence and correctness", "statement": "`mod_sqrt` terminates for every canonical input; it returns None exactly for non-squares and otherwise a canonical r with r^2 = a.", "quantifier": "every canonical field element, both sign choices", "why_tests_cant": "Tonelli-Shanks termination depends on 6 being a non-residue and on the 2-adic structure of p-1 for all inputs.", "anchors": ["src/backend/u64/field.rs: ModSqrt"]}
{"id": "C13", "title": "Modular square root: the sign choice", "statement": "The two sign choices of `mod_sqrt` return negatives of each other, so both roots are reachable; but the documented meaning (`Choice(1)` gives the positive root, `Choice(0)` the negative) is false for some inputs.", "quantifier": "every nonzero square; witness for the failing part", "why_tests_cant": "The doc claim happens to hold on about half of all inputs, so a sampled test can pass.", "anchors": ["src/backend/u64/field.rs: ModSqrt, is_positive"]}
{"id": "C14", "title": "sqrt_ratio_i contract", "statement": "`u.sqrt_ratio_i(v)` returns (1, +sqrt(u/v)) if u/v is a nonzero square, (1,0) if u = 0, (0,0) if v = 0 and u nonzero, and (0, +sqrt(i*u/v)) if u/v is a non-square; the root returned is always non-negative (at most (p-1)/2).", "quantifier": "every canonical u, v", "why_tests_cant": "The four-way contract is about quadratic residuosity over the full field.", "anchors": ["src/backend/u64/field.rs: SqrtRatioI, is_positive", "src/backend/u64/constants.rs: SQRT_MINUS_ONE"]}
{"id": "C15", "title": "inv_sqrt contract", "statement": "`v.inv_sqrt()` returns (1, r) with r non-negative and r^2 * v = 1 if v is a nonzero square, (0,0) if v = 0, and (0, r) with r non-negative and r^2 * v = i if v is a non-square.", "quantifier": "every canonical v", "why_tests_cant": "As sqrt_ratio_i.", "anchors": ["src/backend/u64/field.rs: InvSqrt"]}
{"id": "C16", "title": "Sign convention", "statement": "`is_positive` is 1 exactly when the value is at most (p-1)/2; hence for every nonzero canonical a exactly one of a, -a is positive, and zero is positive.", "quantifier": "every canonical field element", "why_tests_cant": "Boundary at (p-1)/2: off-by-one errors are invisible to random tests.", "anchors": ["src/backend/u64/field.rs: is_positive", "src/backend/u64/constants.rs: POS_RANGE"]}
{"id": "C17", "title": "Ordering is numeric", "statement": "The `Ord` implementations of field elements and scalars order by integer value for all elements with 52-bit limbs.", "quantifier": "every pair of elements with 52-bit limbs", "why_tests_cant": "Lexicographic limb comparison must agree with numeric order for all pairs.", "anchors": ["src/backend/u64/field.rs: Ord", "src/backend/u64/scalar.rs: Ord"]}
{"id": "C18", "title": "Field byte encoding", "statement": "`to_bytes` of an element with 52-bit limbs below 2^256 is its 32-byte little-endian value; `from_bytes` accepts all 2^256 byte strings and returns the element with exactly that integer value (without reducing mod p, so it is not canonical for values >= p); the two are inverse bijections between byte strings and such elements.", "quantifier": "every 32-byte string, every element below 2^256", "why_tests_cant": "Round-trip over 2^256 byte strings with limb-straddling bytes.", "anchors": ["src/backend/u64/field.rs: from_bytes, to_bytes"]}
{"id": "C19", "title": "Field equality is representation equality", "statement": "`==` on field elements coincides with equality of integer values below 2^256. On canonical elements this is equality in the field; on non-canonical ones it is not: `from_bytes(p) != zero()` although both are 0 mod p, contrary to the documented normalisation.", "quantifier": "every pair of elements below 2^256; witness for the non-canonical failure", "why_tests_cant": "Inequality of congruent elements needs inputs >= p, which random 253-bit tests hit with negligible probability.", "anchors": ["src/field.rs: ConstantTimeEq, PartialEq"]}
{"id": "C20", "title": "Unsigned conversions", "statement": "`FieldElement::from` of u8/u16/u32/u64/u128 is the canonical element with that integer value; same for scalars.", "quantifier": "every u8, u16, u32, u64, u128 value", "why_tests_cant": "All 2^128 inputs; limb split at bits 52 and 104.", "anchors": ["src/backend/u64/field.rs: From<u8..u128>", "src/backend/u64/scalar.rs: From<u8..u128>"]}
{"id": "C21", "title": "Powers of two", "statement": "`FieldElement::two_pow_k(k)` is canonical 2^k for all k <= 252 and panics for k >= 253; `Scalar::two_pow_k(k)` is canonical 2^k for all k <= 249 and panics for k >= 250.", "quantifier": "every u64 k", "why_tests_cant": "The panic guard must coincide with the canonical range; needs 2^252 < p and 2^249 < L.", "anchors": ["src/backend/u64/field.rs: two_pow_k", "src/backend/u64/scalar.rs: two_pow_k"]}
{"id": "C22", "title": "Random field elements and scalars are always canonical", "statement": "Whatever bytes the generator delivers, `FieldElement::random` and `Scalar::random` do not panic and return canonical values. They are not uniform as documented: field values are always below 2^251 and scalar values below 2^249, so about half of the field is never produced. On those ranges they are uniform: every field element below 2^251 comes from exactly 32 and every scalar below 2^249 from exactly 128 of the 2^256 generator outputs.", "quantifier": "every 32-byte generator output; every element of the range", "why_tests_cant": "Quantifies over the generator; non-uniformity is a statement about values never produced.", "anchors": ["src/field.rs: random", "src/scalar.rs: random"]}
{"id": "C23", "title": "Conversion to and from curve25519 scalars", "statement": "For canonical field elements, converting to `Ristretto255Scalar` never panics and converting back returns the same element; a non-canonical element makes the by-value conversion panic.", "quantifier": "every element below 2^256, with the curve25519-dalek canonicity check as an assumption", "why_tests_cant": "Relies on p being exactly the curve25519 group order for all values.", "anchors": ["src/backend/u64/field.rs: From<&Ristretto255Scalar>, Into<Ristretto255Scalar>", "src/field.rs: Into<Scalar>"]}
{"id": "C24", "title": "Debug and release builds agree on canonical inputs", "statement": "Field and scalar add/sub/neg/mul/square/half/pow/inverse on canonical inputs never overflow: the overflow-checking build never panics and returns the same result as the wrapping build. The same holds for the point functions: on reduced coordinates windowed multiplication, the conversions, the validity checks, the coset, random points and negation of encodings give the same coordinates, or the same panic, in every build (the other point functions are in C89).", "quantifier": "every canonical input, both build profiles", "why_tests_cant": "Overflow freedom is universal; tests run in one profile on sample inputs.", "anchors": ["src/backend/u64/field.rs: Add, Sub, Mul, Square, Pow, inverse", "src/backend/u64/scalar.rs: Add, Sub, Mul, Square, Pow", "src/edwards.rs: window_naf_mul, coset4, new_random_point, is_valid", "src/ristretto.rs: is_valid, coset4, new_random_point"]}
{"id": "C25", "title": "Scalar addition", "statement": "For canonical scalars `a + b` is canonical (a+b) mod L, no panic.", "quantifier": "every pair of canonical scalars, both profiles", "why_tests_cant": "The input space has more than 2^250 elements; a test fixes a handful of values, and carries/borrows fail only on rare limb patterns.", "anchors": ["src/backend/u64/scalar.rs: Add"]}
{"id": "C26", "title": "Scalar subtraction and negation", "statement": "For canonical scalars `a - b` is canonical (a-b) mod L and `-a` is canonical (-a) mod L.", "quantifier": "every pair of canonical scalars, both profiles", "why_tests_cant": "The input space has more than 2^250 elements; a test fixes a handful of values, and carries/borrows fail only on rare limb patterns.", "anchors": ["src/backend/u64/scalar.rs: Sub, Neg"]}
{"id": "C27", "title": "Scalar multiplication and squaring", "statement": "For scalars with 52-bit limbs `a * b` is canonical a*b mod L, and `a.square()` returns exactly `a * a`.", "quantifier": "every pair of scalars with 52-bit limbs, both profiles", "why_tests_cant": "The input space has more than 2^250 elements; a test fixes a handful of values, and carries/borrows fail only on rare limb patterns.", "anchors": ["src/backend/u64/scalar.rs: Mul, Square, montgomery_reduce", "src/backend/u64/constants.rs: L, RR, LFACTOR"]}
{"id": "C28", "title": "Scalar halving and shifting", "statement": "`half` is division by two mod L; `half_without_mod` is floor(a/2); `a >> n` is floor(a / 2^n) for every u8 n.", "quantifier": "every scalar with 52-bit limbs, every shift amount", "why_tests_cant": "The input space has more than 2^250 elements; a test fixes a handful of values, and carries/borrows fail only on rare limb patterns.", "anchors": ["src/backend/u64/scalar.rs: Half, half_without_mod, Shr"]}
{"id": "C29", "title": "Scalar exponentiation", "statement": "`a.pow(e)` terminates and returns canonical a^e mod L for every scalar e. (The odd branch uses modular halving, which is exact there because the exponent has just been made even.)", "quantifier": "every base with 52-bit limbs, every canonical exponent", "why_tests_cant": "Mixed modular/plain halving; correctness over all exponents.", "anchors": ["src/backend/u64/scalar.rs: Pow"]}
{"id": "C30", "title": "Scalar byte decoding", "statement": "`Scalar::from_bytes` returns the scalar with exactly the encoded integer when it is below L and panics on every other input; `to_bytes` is its inverse on canonical scalars.", "quantifier": "every 32-byte string", "why_tests_cant": "Rejection boundary at L; 2^256 inputs.", "anchors": ["src/backend/u64/scalar.rs: from_bytes, to_bytes"]}
{"id": "C31", "title": "Scalar bits", "statement": "`into_bits` returns 256 entries, each 0 or 1, whose weighted sum is the scalar value.", "quantifier": "every scalar below 2^256", "why_tests_cant": "The input space has more than 2^250 elements; a test fixes a handful of values, and carries/borrows fail only on rare limb patterns.", "anchors": ["src/backend/u64/scalar.rs: into_bits"]}
{"id": "C32", "title": "Non-adjacent form", "statement": "`compute_NAF` terminates without panic for every canonical scalar; digits are in {-1,0,1}, no two adjacent digits are nonzero, their weighted sum is the scalar value, and all digits from position 250 on are zero.", "quantifier": "every canonical scalar", "why_tests_cant": "The +1 steps interact with reduction mod L near the top of the range.", "anchors": ["src/backend/u64/scalar.rs: compute_NAF, mod_2_pow_k"]}
{"id": "C33", "title": "Windowed non-adjacent form", "statement": "For widths 2..5 `compute_window_NAF` terminates for every canonical scalar with digits odd or zero, below 2^(w-1) in absolute value, any w consecutive digits having at most one nonzero, and weighted sum equal to the scalar value. Width 6 violates this: for the scalar L-2 the digits do not represent the scalar.", "quantifier": "every canonical scalar and width 2..5; witness for width 6", "why_tests_cant": "Wrap-around mod L appears only for scalars within 32 of L; random tests never hit it.", "anchors": ["src/backend/u64/scalar.rs: compute_window_NAF, mods_2_pow_k"]}
{"id": "C34", "title": "Degenerate window widths", "statement": "`compute_window_NAF` with width 1 or width 0 panics for every nonzero canonical scalar, in every build.", "quantifier": "every nonzero canonical scalar, both build modes", "why_tests_cant": "Quantifies over all scalars; documentation does not restrict the width.", "anchors": ["src/backend/u64/scalar.rs: compute_window_NAF"]}
{"id": "C35", "title": "Conversion from i8", "statement": "`Scalar::from(x: i8)` is x mod L for every x from -127 to 127. For x = -128 it panics in overflow-checking builds and returns +128 in release builds.", "quantifier": "every i8", "why_tests_cant": "The failing input is the single value -128.", "anchors": ["src/backend/u64/scalar.rs: From<i8>"]}
{"id": "C36", "title": "Residues mod powers of two", "statement": "`mod_2_pow_k(k)` equals the value mod 2^k for k <= 8. For 8 <= k < 64 the result is always the value mod 2^8 instead of the documented panic. For k >= 64 overflow-checking builds panic and others return the value mod 2^min(8, k mod 64).", "quantifier": "every scalar with 52-bit limbs, every k", "why_tests_cant": "The documented panic condition is never tested.", "anchors": ["src/backend/u64/scalar.rs: mod_2_pow_k"]}
{"id": "C37", "title": "Edwards addition is complete and closed", "statement": "For any two points in extended coordinates that represent curve points (including equal, opposite, identity and small-order points), `P + Q` does not panic and represents the affine sum given by the twisted Edwards law; its Z is nonzero and its T is consistent.", "quantifier": "every pair of valid extended points, all projective representatives, both profiles", "why_tests_cant": "Exceptional cases of the addition formula would be measure-zero sets; completeness depends on d being a non-square.", "anchors": ["src/edwards.rs: Add for EdwardsPoint", "src/backend/u64/constants.rs: EDWARDS_D"]}
{"id": "C38", "title": "Point addition forms a commutative group", "statement": "Edwards addition of curve points is associative and commutative, with identity (0,1) and inverse given by negating x.", "quantifier": "all triples of curve points", "why_tests_cant": "Associativity is a universally quantified polynomial identity over the curve.", "anchors": ["src/edwards.rs: Add, Neg, Identity for EdwardsPoint"]}
{"id": "C39", "title": "Doubling", "statement": "`P.double()` represents P + P for extended and for projective points (the projective doubling uses a separate formula).", "quantifier": "every valid extended/projective point", "why_tests_cant": "The dedicated projective doubling formula could have exceptional points.", "anchors": ["src/edwards.rs: Double for EdwardsPoint, Double for ProjectivePoint"]}
{"id": "C40", "title": "Negation and subtraction", "statement": "`-P` represents the group inverse and `P - Q` represents P + (-Q), for extended and projective points.", "quantifier": "every pair of valid points", "why_tests_cant": "Subtraction in extended coordinates is separate code from addition.", "anchors": ["src/edwards.rs: Neg, Sub for EdwardsPoint, ProjectivePoint, AffinePoint"]}
{"id": "C41", "title": "Projective addition agrees with extended addition", "statement": "Projective addition is complete and represents the same affine sum as extended addition; conversions between affine, projective and extended coordinates preserve the represented point. The identity of every point type represents the neutral element.", "quantifier": "every pair of valid points in each coordinate system", "why_tests_cant": "All projective representatives of all points.", "anchors": ["src/edwards.rs: Add for ProjectivePoint, From impls"]}
{"id": "C42", "title": "Point equality is equality of the represented points", "statement": "`==` on extended and projective points is true exactly when they represent the same affine point, independent of the projective representative; comparing never panics on valid points.", "quantifier": "every pair of valid points, every representative", "why_tests_cant": "Equal points have 2^252 representatives.", "anchors": ["src/edwards.rs: ConstantTimeEq for EdwardsPoint, ProjectivePoint, AffinePoint"]}
{"id": "C43", "title": "Validity check of affine points", "statement": "`AffinePoint::is_valid` is 1 exactly for coordinates on the curve.", "quantifier": "every pair of canonical coordinates", "why_tests_cant": "Universally quantified equivalence.", "anchors": ["src/edwards.rs: is_valid for AffinePoint"]}
{"id": "C44", "title": "Validity check of projective and extended points", "statement": "With nonzero Z, projective/extended `is_valid` is 1 exactly when (X/Z, Y/Z) is on the curve. The check ignores T and accepts the all-zero point, which represents no curve point and on which equality panics.", "quantifier": "every canonical coordinate triple with nonzero Z; witnesses for the failing part", "why_tests_cant": "Bogus acceptances are isolated points.", "anchors": ["src/edwards.rs: is_valid for ProjectivePoint, EdwardsPoint"]}
{"id": "C45", "title": "Scalar multiplication", "statement": "`P * n` (double-and-add) terminates, does not panic and represents n times P, for extended, projective and Ristretto points and every scalar with 52-bit limbs below 2^256. A raw scalar with higher bits is truncated by the loop's zero test: multiplying by the raw scalar 2^256 returns the identity for every P.", "quantifier": "every valid point, every scalar below 2^256; witness for the failing part", "why_tests_cant": "Induction over scalar bits; 2^250 scalars.", "anchors": ["src/edwards.rs: double_and_add, Mul"]}
{"id": "C46", "title": "Scalar arithmetic is compatible with point multiplication", "statement": "On multiples of the base point: (a + b)*B = a*B + b*B, (a*b)*B = a*(b*B), (-a)*B = -(a*B), where scalar operations are mod L; and a*B = b*B only if a = b.", "quantifier": "every pair of canonical scalars", "why_tests_cant": "Needs that the base point has order exactly L.", "anchors": ["src/edwards.rs: Mul", "src/backend/u64/scalar.rs: Add, Mul, Neg", "src/backend/u64/constants.rs: BASEPOINT, L"]}
{"id": "C47", "title": "The base point has prime order L", "statement": "L is prime, the base point is on the curve with y = 3/5, L times it is the identity, and no smaller positive multiple is.", "quantifier": "all positive multiples below L", "why_tests_cant": "Order statement quantifies over 2^249 multiples.", "anchors": ["src/backend/u64/constants.rs: BASEPOINT, L"]}
{"id": "C48", "title": "Left-to-right binary multiplication", "statement": "`ltr_bin_mul` equals n*P for every scalar below 2^249; for canonical scalars at or above 2^249 it drops the top bit and returns (n - 2^249)*P, which differs from n*P on the base point.", "quantifier": "every valid point, every canonical scalar", "why_tests_cant": "Scalars >= 2^249 below L are a 2^-126 fraction; random tests never reach them.", "anchors": ["src/edwards.rs: ltr_bin_mul"]}
{"id": "C49", "title": "NAF multiplication", "statement": "`binary_naf_mul` equals n*P for every canonical scalar and every valid point.", "quantifier": "every valid point, every canonical scalar", "why_tests_cant": "Signed-digit recoding near L.", "anchors": ["src/edwards.rs: binary_naf_mul"]}
{"id": "C50", "title": "Windowed NAF base point multiplication", "statement": "`window_naf_mul(n, 2)` equals n*B for every canonical scalar. For the widths 3 to 5 the table of odd multiples is indexed by the digit instead of by its half, and the result is n*B exactly when every digit of the width-w expansion of n is -1, 0 or 1; in particular every scalar that is 3 or 5 modulo 8 comes out wrong (scalar 3 with width 3 gives 5*B). For any width and build the outcome follows from the digits: the table has 126 entries, so a digit of size 126 or more among the first 250 is a panic. Width 2 is the only width that is right for all scalars: for every other width the scalar 253 panics or gives a wrong point. All of this holds for the comparison by `==` of group elements too, which ignores 4-torsion: `window_naf_mul(n, w) == n * B` is true exactly for the scalars with digits -1, 0 and 1.", "quantifier": "for all canonical scalars, all points, every width and every build", "why_tests_cant": "The table holds correct points, so only the composition is wrong.", "anchors": ["src/edwards.rs: window_naf_mul", "src/backend/u64/constants.rs: BASEPOINT_ODD_MULTIPLES_TABLE"]}
{"id": "C51", "title": "Cofactor and power-of-two multiplication", "statement": "`mul_by_cofactor(P)` is 8*P; `mul_by_pow_2(P,k)` is 2^k*P for k <= 249 and panics above.", "quantifier": "every valid point, every u64 k", "why_tests_cant": "The input space has more than 2^250 elements; a test fixes a handful of values, and carries/borrows fail only on rare limb patterns.", "anchors": ["src/edwards.rs: mul_by_cofactor, mul_by_pow_2"]}
{"id": "C52", "title": "Constructing a point from y", "statement": "`new_from_y_coord(y, sign)` never panics; it returns Some exactly when some curve point has that y, the point returned is on the curve with that y, and the two sign choices give P and -P.", "quantifier": "every canonical y, both signs", "why_tests_cant": "The division inside never hits zero because -1/d is a non-square: a universally quantified fact.", "anchors": ["src/edwards.rs: new_from_y_coord"]}
{"id": "C53", "title": "Compress then decompress", "statement": "For every valid point whose affine y is below 2^252, decompress(compress(P)) = P. For points with y in [2^252, p) the round trip never returns P: bit 252 of y is masked off; (0,-1) is such a point.", "quantifier": "every valid point with y < 2^252; every valid point with y >= 2^252", "why_tests_cant": "Affected y form a 2^-127 fraction of all points, never sampled.", "anchors": ["src/edwards.rs: compress, decompress"]}
{"id": "C54", "title": "Edwards decompression is malleable", "statement": "Bits 4..6 of the last byte are ignored by decompress, so each accepted encoding has seven distinct others that decode to the same point; also both sign bits decode the identity. Exactly: two strings decode to the same point iff their low 252 bits agree and, unless x = 0, their top bits agree. A curve point with y < 2^252 has 8 encodings (16 if x = 0), one with y >= 2^252 has none.", "quantifier": "every pair of 32-byte strings; every curve point", "why_tests_cant": "Statement about pairs of encodings over all strings.", "anchors": ["src/edwards.rs: CompressedEdwardsY::decompress"]}
{"id": "C55", "title": "Edwards decompression soundness", "statement": "`decompress` never panics on any 32 bytes; whenever it returns a point, that point is on the curve and its y is the low 252 bits of the string; it returns None exactly if no curve point has that y.", "quantifier": "every 32-byte string", "why_tests_cant": "All 2^256 strings; inversion inside must never be by zero.", "anchors": ["src/edwards.rs: decompress, new_from_y_coord"]}
{"id": "C56", "title": "Curve order", "statement": "The curve has exactly 8*L points, and the group is cyclic.", "quantifier": "all curve points", "why_tests_cant": "Counting all points of a 252-bit curve.", "anchors": ["src/backend/u64/constants.rs: EDWARDS_D, L"]}
{"id": "C57", "title": "coset4", "statement": "The documented 4-coset is wrong: the second entry of `coset4` adds the point (1,0), which is not on the curve; its affine coordinates are those of P swapped, and it is never a curve point. The other three entries are P, P + (-i,0) and P + (0,-1).", "quantifier": "every valid point", "why_tests_cant": "The Ristretto equality used in the existing test accepts the bad entry.", "anchors": ["src/edwards.rs: coset4", "src/backend/u64/constants.rs: FOUR_COSET_GROUP"]}
{"id": "C58", "title": "Ristretto equality", "statement": "`==` on Ristretto points holding curve points is true exactly when they differ by one of the four 4-torsion points; it is an equivalence relation independent of projective representatives.", "quantifier": "every pair of valid points", "why_tests_cant": "Quotient-group equality over all pairs.", "anchors": ["src/ristretto.rs: ConstantTimeEq for RistrettoPoint"]}
{"id": "C59", "title": "Ristretto decoding then encoding", "statement": "If `decompress(bytes)` returns a point then compressing that point returns the same bytes.", "quantifier": "every 32-byte string", "why_tests_cant": "Canonicity of the wire format over all strings.", "anchors": ["src/ristretto.rs: decompress, compress"]}
{"id": "C60", "title": "Ristretto encoding then decoding", "statement": "For every point of the even subgroup (2E), compress terminates without panic, its output decodes, and the decoded point equals the original as Ristretto point.", "quantifier": "every point of 2E, every representative", "why_tests_cant": "Covers all torsion representatives and sign cases.", "anchors": ["src/ristretto.rs: compress, decompress"]}
{"id": "C61", "title": "Ristretto encodings identify group elements", "statement": "For points of the even subgroup, compress(P) = compress(Q) exactly when P == Q as Ristretto points.", "quantifier": "every pair of points of 2E", "why_tests_cant": "Injectivity over cosets.", "anchors": ["src/ristretto.rs: compress, ConstantTimeEq"]}
{"id": "C62", "title": "Ristretto decoding rejects bad encodings", "statement": "`decompress` returns None for every byte string whose integer value exceeds (p-1)/2: this covers all non-canonical and all negative encodings; it never panics on any input.", "quantifier": "every 32-byte string", "why_tests_cant": "Rejection must hold for all such strings.", "anchors": ["src/ristretto.rs: decompress"]}
{"id": "C63", "title": "Ristretto decoding yields even-subgroup curve points", "statement": "Whenever `decompress` returns a point it is on the curve, in the even subgroup, with consistent extended coordinates.", "quantifier": "every 32-byte string", "why_tests_cant": "Universally quantified soundness.", "anchors": ["src/ristretto.rs: decompress"]}
{"id": "C64", "title": "Elligator map is total and valid", "statement": "`elligator_ristretto_flavor(r)` never panics and returns a valid extended point on the curve in the even subgroup, for every r, canonical or not.", "quantifier": "every field element below 2^256", "why_tests_cant": "Exceptional denominators occur for isolated r only.", "anchors": ["src/ristretto.rs: elligator_ristretto_flavor", "src/backend/u64/constants.rs: SQRT_AD_MINUS_ONE"]}
{"id": "C65", "title": "from_uniform_bytes is total and valid", "statement": "`from_uniform_bytes` returns a valid point of the even subgroup for all 64-byte inputs, never panicking; so does `new_random_point` for every generator output.", "quantifier": "every 64-byte string", "why_tests_cant": "2^512 inputs.", "anchors": ["src/ristretto.rs: from_uniform_bytes, new_random_point"]}
{"id": "C66", "title": "Ristretto operations respect equality", "statement": "Addition, subtraction, negation, doubling and scalar multiplication of Ristretto points send equal inputs to equal outputs.", "quantifier": "all pairs of equal valid points and all scalars", "why_tests_cant": "Well-definedness on the quotient.", "anchors": ["src/ristretto.rs: Add, Sub, Neg, Double, Mul"]}
{"id": "C67", "title": "The Ristretto group has exactly L elements", "statement": "The points of the even subgroup modulo Ristretto equality form a set of exactly L classes, all of them multiples of the base point; hence exactly L byte strings decode.", "quantifier": "all byte strings / all classes", "why_tests_cant": "Counting 2^249 classes.", "anchors": ["src/ristretto.rs: decompress, compress"]}
{"id": "C68", "title": "Ristretto validity check", "statement": "On valid extended points, `RistrettoPoint::is_valid` is 1 exactly when L*P is the identity. It therefore rejects representatives of legitimate Ristretto elements that carry 4-torsion, including some outputs of `decompress`.", "quantifier": "every valid extended point; witness", "why_tests_cant": "Equivalence over all points; test vectors only use multiples of the base point.", "anchors": ["src/ristretto.rs: is_valid"]}
{"id": "C69", "title": "Base point encodings", "statement": "The compressed constants decode to the base points, and the base points compress to the constants, for Edwards and Ristretto encodings.", "quantifier": "the published constants", "why_tests_cant": "Ties constants to the general theorems.", "anchors": ["src/constants.rs: BASEPOINT_COMPRESSED, RISTRETTO_BASEPOINT_COMPRESSED", "src/backend/u64/constants.rs: BASEPOINT"]}
{"id": "C70", "title": "Table of odd multiples", "statement": "Entry i (1 <= i <= 125) of the base point table is a valid extended point equal to (2i-1)*B, entry 0 is the identity.", "quantifier": "every table entry", "why_tests_cant": "Finite but no test checks the table.", "anchors": ["src/backend/u64/constants.rs: BASEPOINT_ODD_MULTIPLES_TABLE"]}
{"id": "C71", "title": "Montgomery point equality", "statement": "Montgomery point equality compares all 256 bits of the encodings; it is not equality mod p as documented (0 and p differ).", "quantifier": "every pair of 32-byte strings; witness", "why_tests_cant": "Needs non-canonical encodings.", "anchors": ["src/montgomery.rs: ConstantTimeEq"]}
{"id": "C72", "title": "Random points", "statement": "For every generator output sequence, `EdwardsPoint::new_random_point` never panics, returns as soon as the generator yields the y of a curve point, and returns a valid curve point with y < 2^251; the sign choice drawn is always 0, so of two points P, -P only one can ever be produced.", "quantifier": "every generator output sequence", "why_tests_cant": "Statement about values never produced.", "anchors": ["src/edwards.rs: new_random_point"]}
{"id": "C73", "title": "What control flow reveals about secrets", "statement": "The sequence of branches and loop iterations of addition, subtraction, negation, multiplication, squaring, halving and conditional negation of field elements and scalars, of point addition, subtraction, doubling and negation, of equality of field elements, scalars, affine points and prime-order group elements, and of the quadratic residue test does not depend on the operands. This fails for the other operations: the control flow of a power determines the exponent, that of an inversion the inverted element, that of an equality test of Edwards points the Z coordinates of both, that of the multiplication operator the whole scalar, and that of left-to-right binary multiplication its 249 low digits; none of the multiplications depends on the point.", "quantifier": "all reduced operands in debug and release builds; in release builds all limbs of any size for the arithmetic; all pairs of inputs for the statements about what is revealed", "why_tests_cant": "A test measures a few executions; that no pair of operands can be told apart, or that every two scalars can, is a statement about all pairs of executions.", "anchors": ["src/backend/u64/field.rs: Add, Sub, Neg, Mul, Square, Half, Pow, inverse, legendre_symbol, ConditionallyNegatable, ConstantTimeEq", "src/backend/u64/scalar.rs: Add, Sub, Neg, Mul, Square, Half", "src/field.rs: ConstantTimeEq", "src/scalar.rs: ConstantTimeEq", "src/edwards.rs: double_and_add, ltr_bin_mul, ConstantTimeEq, Add, Sub, Neg, Double", "src/ristretto.rs: ConstantTimeEq"]}
{"id": "C74", "title": "Negating a compressed Edwards point", "statement": "If 32 bytes decompress to P, negating the compressed point gives bytes that decompress to -P. If the bytes do not decompress, negation panics.", "quantifier": "every 32-byte string", "why_tests_cant": "All 2^256 strings; the round trip depends on y staying below 2^252, which holds for every decoded point but not for every point.", "anchors": ["src/edwards.rs: Neg for CompressedEdwardsY"]}
{"id": "C75", "title": "Ristretto points are a module over the scalars", "statement": "For Ristretto points and scalars in range: (m+n)P == mP + nP, (mn)P == m(nP), (m-n)P == mP - nP, (-n)P == -(nP), n(P+Q) == nP + nQ, 1P == P, 0P == identity, L*P == identity; and nP is the identity only if n = 0 or P is the identity.", "quantifier": "every pair of even valid points and every pair of canonical scalars", "why_tests_cant": "Couples scalar arithmetic mod L, point arithmetic and Ristretto equality over 2^249 values.", "anchors": ["src/ristretto.rs: Mul, Add, Sub, Neg, ct_eq", "src/scalar.rs: Add, Mul, Sub, Neg"]}
{"id": "C76", "title": "Key agreement through encodings", "statement": "If two parties publish the Ristretto encodings of m*P and n*P, decode each other's encoding and multiply by their own scalar, both encodings of the shared point are the same bytes; different secrets give different public encodings.", "quantifier": "every even valid point and every pair of scalars below 2^256 (distinctness: every pair of canonical scalars)", "why_tests_cant": "A protocol-level composition; tests can only try a few keys.", "anchors": ["src/ristretto.rs: compress, decompress, Mul"]}
{"id": "C77", "title": "Scalar laws on Edwards points with torsion", "statement": "(m+n)P = mP + nP with scalar addition mod L holds on the prime-order subgroup and fails for some scalars on every valid Edwards point outside it.", "quantifier": "every valid Edwards point; witnesses of both kinds", "why_tests_cant": "Needs points with torsion, which no test multiplies.", "anchors": ["src/edwards.rs: Mul", "src/scalar.rs: Add"]}
{"id": "C78", "title": "Cofactor multiplication clears torsion", "statement": "Multiplying any valid point by the cofactor gives a multiple of the base point, accepted by the Ristretto validity check; the result is the identity for exactly eight points.", "quantifier": "every valid point", "why_tests_cant": "All 8L points.", "anchors": ["src/edwards.rs: mul_by_cofactor", "src/ristretto.rs: is_valid"]}
{"id": "C79", "title": "Edwards encodings are injective", "statement": "Two valid points have the same Edwards encoding exactly if they are the same curve point (although some encodings do not decode, C53).", "quantifier": "every pair of valid points", "why_tests_cant": "Pairs of 8L points.", "anchors": ["src/edwards.rs: EdwardsPoint::compress"]}
{"id": "C80", "title": "Elligator computes the RFC 9496 map", "statement": "The Elligator map returns exactly the point of the MAP function of RFC 9496 4.3.4 with this curve's parameters, using the smaller roots of -1 and -d-1; opposite field elements give the same point.", "quantifier": "every field element with 52-bit limbs", "why_tests_cant": "The test has a single vector.", "anchors": ["src/ristretto.rs: elligator_ristretto_flavor"]}
{"id": "C81", "title": "Elligator is at most 16 to 1", "statement": "At most 16 field elements are mapped to any one Ristretto point, so the map reaches at least p/16 different encodings.", "quantifier": "every valid point; counting over all field elements", "why_tests_cant": "Counting statement over p elements.", "anchors": ["src/ristretto.rs: elligator_ristretto_flavor"]}
{"id": "C82", "title": "Arithmetic on unreduced field elements", "statement": "from_bytes accepts all 2^256 byte strings. On such elements addition is right modulo p (and subtracts p once at most), multiplication, squaring, powers and the residue test are right modulo p with reduced result, but subtraction is right only if the subtrahend exceeds the minuend by at most p, negation only for values up to p, and for nonzero multiples of p inversion and division return zero instead of panicking, mod_sqrt never returns and sqrt_ratio_i reports a square root of zero.", "quantifier": "every pair of field elements from_bytes can return", "why_tests_cant": "The wrong results are confined to unreduced inputs that no test uses; divergence cannot be tested.", "anchors": ["src/backend/u64/field.rs: from_bytes, Add, Sub, Neg, Mul, inverse, Div, mod_sqrt, sqrt_ratio_i"]}
{"id": "C83", "title": "Windowed NAF with wide windows", "statement": "Width 6 is right for every scalar except L-2; width 7 is right in wrapping builds for every scalar except the odd ones from L-34, and panics in checked builds exactly when a digit overflow occurs; wrong digit strings denote the scalar minus L+1. Widths from 8 panic in checked builds, widths from 32 in all. In wrapping builds the widths 8 to 31 behave by their residue modulo 8: residue 0 gives even digits that denote no number congruent to the scalar modulo L, for every nonzero scalar; residue 1 panics for every nonzero scalar; residues 2 to 7 give digits with the right sum, but only as sparse as the residue, and residue 7 is again wrong for the odd scalars from L-34. The zero scalar has only zero digits for every width in every build.", "quantifier": "every canonical scalar, every width", "why_tests_cant": "The failing scalars are the last few of 2^249.", "anchors": ["src/backend/u64/scalar.rs: compute_window_NAF, mods_2_pow_k, mod_2_pow_k"]}
{"id": "C84", "title": "Published constants satisfy their documented equations", "statement": "Each constant has the documented decimal value, is reduced, and satisfies the documented equation: Montgomery factors, squared radices, halves, -1, d, the roots of -1, -d-1 and the inverse root of -1-d, and the constants INV_RR, INV_SQRT_A and MINUS_SQRT_A that no function uses.", "quantifier": "all published scalar and field constants", "why_tests_cant": "Equations modulo p between numbers of 253 bits given as limbs.", "anchors": ["src/backend/u64/constants.rs"]}
{"id": "C85", "title": "Compressed points as byte containers", "statement": "from_slice and copy_from_slice accept exactly slices of length 32, keep the bytes and panic otherwise; equality of compressed points is equality of all bytes; indexing panics exactly from 32; the default compressed Edwards point decodes to the identity.", "quantifier": "every byte slice, every pair of byte strings, every index", "why_tests_cant": "All slices of all lengths.", "anchors": ["src/edwards.rs: CompressedEdwardsY::from_slice, ct_eq, Index, Default", "src/ristretto.rs: CompressedRistretto::copy_from_slice, ct_eq, Index"]}
{"id": "C86", "title": "Unimplemented functions panic", "statement": "EdwardsPoint::to_montgomery, MontgomeryPoint::to_edwards and Scalar::from_bytes_wide panic for every argument.", "quantifier": "every argument", "why_tests_cant": "Public functions that no test calls.", "anchors": ["src/edwards.rs: to_montgomery", "src/montgomery.rs: to_edwards", "src/backend/u64/scalar.rs: from_bytes_wide"]}
{"id": "C87", "title": "Documented examples", "statement": "The point G of the usage example is not on the curve and is rejected by the validity check; its random scalar never panics and is below 2^248; the subgroup orders printed in the scalar documentation and in the README are not the order of the base point; the documented division -126296/126297 gives the constant d.", "quantifier": "every random byte string; every build", "why_tests_cant": "Documentation is not executed with assertions.", "anchors": ["src/lib.rs", "examples/basic_ops.rs", "README.md", "src/scalar.rs", "src/field.rs"]}
{"id": "C90", "title": "Number tools", "statement": "The tool splitting decimal numbers into limbs gives the limbs of the number mod 2^260 and the joining tool inverts it exactly for numbers below 2^260; the bitwise Montgomery reduction is right for every odd modulus, and converting to Montgomery form and back recovers every residue.", "quantifier": "every number, every odd modulus", "why_tests_cant": "Unbounded numbers and moduli; the tool has no tests.", "anchors": ["tools/src/main.rs: to_scalar_base_52, from_scalar_base_52, Montgomery"]}
{"id": "C88", "title": "The Montgomery and Weierstrass forms in the README", "statement": "The points of the library, with its addition, form the same group as the Montgomery curve y^2=x^3+505186x^2+x and as the Weierstrass curve with the README's a and b, each with the chord and tangent law; both are nonsingular, have 2^252+115924404605461509904689566245241897752 points, and the base point has u=4. Library addition, subtraction, doubling, negation, scalar multiplication and equality correspond to the operations of that group.", "quantifier": "every pair of represented points, every canonical scalar", "why_tests_cant": "An isomorphism of groups with 2^252 elements; the library implements no conversion to compare with.", "anchors": ["README.md: curve parameters", "src/edwards.rs: EdwardsPoint Add, Sub, Double, Neg, Mul, ct_eq"]}
{"id": "C89", "title": "Point functions on arbitrary reduced coordinates", "statement": "Coordinates are public. For every tuple of reduced coordinates, on the curve or not, addition, subtraction, doubling, negation and all multiplication functions return reduced coordinates; Ristretto encoding and equality, all decoders and the map to the group return; conversion to affine coordinates, and equality, panic exactly when a Z is zero; Edwards compression panics exactly when Z is zero or no curve point has the ordinate Y/Z; the validity check accepts a tuple with Z=0 exactly when X or Y is zero. All results are the same in debug and release builds.", "quantifier": "every tuple of reduced coordinates, every canonical scalar, every byte string, every build", "why_tests_cant": "Absence of panics and agreement of two builds over all tuples.", "anchors": ["src/edwards.rs: EdwardsPoint, ProjectivePoint, AffinePoint", "src/ristretto.rs: RistrettoPoint, CompressedRistretto"]}
{"id": "C91", "title": "Signed digit expansions are unique and shortest", "statement": "An integer has at most one width-w non-adjacent form, so compute_NAF and compute_window_NAF (widths 2 to 5) return exactly that one, in every build, and agree for width 2; no expansion with digits -1, 0, 1 of the same scalar has fewer nonzero digits than compute_NAF returns, in particular the binary one has not.", "quantifier": "every canonical scalar, every competing digit string", "why_tests_cant": "Minimality quantifies over all 3^256 digit strings.", "anchors": ["src/backend/u64/scalar.rs: compute_NAF, compute_window_NAF, into_bits"]}
{"id": "C92", "title": "Distribution of hashing to the group", "statement": "No group element is the result of from_uniform_bytes on more than 2^264 of the 2^512 inputs (a 2^-248 share); no element comes from more than 2^8 of the 2^256 byte strings under one Elligator application; and from_uniform_bytes reaches all of the L group elements except fewer than 2^124.", "quantifier": "every group element, all 2^512 inputs counted", "why_tests_cant": "Counts over 2^512 inputs.", "anchors": ["src/ristretto.rs: from_uniform_bytes, elligator_ristretto_flavor, new_random_point"]}
{"id": "C93", "title": "Ristretto is a group of prime order L, as an interface", "statement": "There is one discrete logarithm function from Ristretto points to the integers modulo L, the same for every build, onto, sending the identity to 0 and the base point to 1, that turns addition, subtraction, negation, doubling and scalar multiplication into the operations of integers modulo L; two points have the same logarithm exactly when they compare equal and exactly when their encodings are equal; decoding an encoding preserves it.", "quantifier": "every Ristretto point, every canonical scalar, every byte string, every build", "why_tests_cant": "One function has to work for all points and operations at once; computing it is the discrete logarithm problem.", "anchors": ["src/ristretto.rs: RistrettoPoint Add, Sub, Neg, Double, Mul, PartialEq, compress; CompressedRistretto decompress"]}
{"id": "C94", "title": "Protocols over the library are correct", "statement": "With points sent as encodings: an honest Schnorr proof verifies; for a decoded key, commitment and challenge exactly one canonical scalar verifies; two accepted answers to different challenges determine the secret by scalar arithmetic; ElGamal decryption returns the message; Pedersen commitments are additive, and if the second generator is not the identity every commitment opens to every value with exactly one canonical blinding scalar.", "quantifier": "every secret, nonce, challenge, message and blinding scalar, every decodable byte string", "why_tests_cant": "Uniqueness and hiding quantify over all scalars.", "anchors": ["src/ristretto.rs: RistrettoPoint Add, Sub, Mul, compress, decompress", "src/backend/u64/scalar.rs: Add, Sub, Mul"]}
{"id": "C95", "title": "Number of point operations in scalar multiplication", "statement": "The operator adds once for each one bit of the scalar and its longest chain of doublings has floor(log2) steps; ltr_bin_mul doubles 249 times and adds once per one bit below 2^249; binary_naf_mul doubles 250 times and adds or subtracts once per nonzero digit, which no expansion with digits -1, 0, 1 improves. The sequence of operations determines the scalar (modulo 2^249 for ltr_bin_mul), so none of the three hides it from an observer of the sequence. On extended and projective coordinates the functions compute exactly these sequences, for every tuple of reduced coordinates.", "quantifier": "every canonical scalar, every tuple of reduced coordinates", "why_tests_cant": "A count and an injectivity claim over all scalars.", "anchors": ["src/edwards.rs: Mul, double_and_add, ltr_bin_mul, binary_naf_mul", "src/backend/u64/scalar.rs: into_bits, compute_NAF"]}
{"id": "C96", "title": "The almost inverse tools", "statement": "For every odd modulus p and every x > 0 `AlmostMontInv(x, p)` ends after at most bits(p)+bits(x) rounds and returns y in 1..p and k with x*y = gcd(p,x)*2^k mod p; for invertible x, y is the reduced inverse times 2^k; zero is not rejected but gives (p, 0). On the field the script's second phase gives the inverse times 2^253, so the value it prints as the inverse is wrong for every x. The Rust tool `phase1` ends without panic with the same property modulo its own constant, which is not the field prime but a multiple of 5, so its results are wrong for the field.", "quantifier": "every odd modulus, every positive integer; every 0 < x < p", "why_tests_cant": "Termination and the loop invariant range over all integers; the wrong constant differs from p in one missing digit.", "anchors": ["tools/kalinski_inv.py: AlmostMontInv, phase2", "tools/src/main.rs: phase1"]}
{"id": "C97", "title": "The square root tool", "statement": "For every prime p and every integer a, `prime_mod_sqrt(a, p)` terminates and returns, without repetition, exactly the y in 0..p-1 with y^2 = a mod p.", "quantifier": "every prime, every integer (also negative or unreduced)", "why_tests_cant": "Quantifies over all primes; the number of rounds of the three loops depends on the prime.", "anchors": ["tools/tonelli.py: legendre_symbol, prime_mod_sqrt"]}
{"id": "C98", "title": "Base-51 and point tools", "statement": "Splitting into base-51 limbs and joining gives the number mod 2^255. Used as limbs of the library the base-51 limbs mean another, larger number for every number from 2^51 to 2^255-1. The point constructor of the tool keeps coordinates below 2^260.", "quantifier": "every natural number", "why_tests_cant": "Equality of two positional systems for all numbers.", "anchors": ["tools/src/main.rs: to_field_elem_51, from_field_elem_base_51, EdwardsPoint::new"]}
{"id": "C99", "title": "How random points and encodings are distributed", "statement": "Exactly 4L+1 field elements are y coordinates of points. Drawing a random Edwards point: more than half, and less than 1/2+2^-126, of all generator outputs give a point at the first draw; at most a 2^-n share of the sequences of n outputs makes the function not return; with independent uniform outputs it returns with probability one. Every point that can be drawn at all comes from exactly 32 of the 2^256 first outputs, so these points are equally likely; with independent uniform outputs each of them is returned with the same probability, one over their number, however many outputs it takes, and the probability that n outputs do not suffice is exactly the n-th power of the share of unusable ones, just below 1/2. Decoding: between 2^255 and 2^255+2^130 of the 2^256 byte strings decode as Edwards points; fewer than 2^126 of the 8L points, but not none, have an encoding that does not decode back.", "quantifier": "every sequence of generator outputs, every n, every byte string, every point", "why_tests_cant": "Counts over 2^256 inputs and a probability over infinite sequences cannot be sampled to these precisions.", "anchors": ["src/edwards.rs: EdwardsPoint::new_random_point, ProjectivePoint::new_random_point, CompressedEdwardsY::decompress, EdwardsPoint::compress", "src/backend/u64/field.rs: FieldElement::random"]}
{"id": "C100", "title": "Limbs larger than 52 bits", "statement": "The limbs of field elements and scalars are public and may exceed 52 bits. For limbs below 2^62 that stand for a number below 2^260, products and squares are right and reduced, sums resolve all carries and subtract the modulus at most once, and multiplying by one gives the one reduced form. Subtracting zero instead cuts every limb to 52 bits. Encoding and equality ignore the bits above 55, 51, 55, 51 and 47 of the five limbs. Witnesses: 2^56 equals zero, two forms of one number differ or are ordered, a product of two numbers above 2^260 is silently wrong, larger limbs panic in debug builds and give wrong results in release builds.", "quantifier": "every limb vector with limbs below 2^62 and value below 2^260; every limb vector for the encoding", "why_tests_cant": "The unnormalised representations of all numbers, 2^310 limb vectors, are involved.", "anchors": ["src/backend/u64/field.rs: FieldElement, mul_internal, square_internal, montgomery_reduce, Add, Sub, to_bytes", "src/backend/u64/scalar.rs: Scalar, mul_internal, square_internal, montgomery_reduce, Add"]}
{"id": "C101", "title": "Montgomery form", "statement": "Entering Montgomery form gives the reduced a*2^260, leaving it gives the reduced a/2^260, and leaving after entering gives a reduced, for the field and for scalars and also for values that are not reduced. The factor is 2^260; the comment on the multiplication says 2^253.", "quantifier": "every value below 2^260", "why_tests_cant": "Tests convert one value; the property is about all of them and about the reduction of the result.", "anchors": ["src/backend/u64/field.rs: montgomery_mul, to_montgomery, from_montgomery", "src/backend/u64/scalar.rs: montgomery_mul, to_montgomery, from_montgomery"]}
{"id": "C102", "title": "The documented security criteria", "statement": "The criteria ticked in the documents hold: L and p are coprime and the embedding degree is exactly (L-1)/15; 0.886 sqrt(L) lies between 2^124 and 2^125 (so the level 127 of the paper is not reached); whatever square is split off from t^2-4p, with t the trace of Frobenius, more than 2^249 remains; one point has order 2 and two have order 4; the ladder and Elligator conditions hold; A^2-4 is no square and A+2 is one. Also the criterion left open in the list: every quadratic twist has 4q points, q a prime above 2^249. The trace is -88182086828089156368837628454358249258; both values printed in the scripts are wrong.", "quantifier": "all points of the curve and of every quadratic twist, all exponents k, all square factors", "why_tests_cant": "The statements count the points of two 252-bit curves and quantify over all embedding fields.", "anchors": ["docs/Safe Curve criteria", "docs/main.tex: Security Analysis", "sage_codes/Safe Curve code", "sage_codes/curve_derivation"]}
{"id": "C103", "title": "Curve choices and worked examples in the documents", "statement": "The base point has the least positive integer u of all points of prime order on the Montgomery form; the rule of the paper (eight times the point of full order with least u) gives another point. The worked sum, double and multiple by eight are right. Wrong in the documents: the prime factor r of the order, the sign in the defining equation (no point with nonzero coordinates satisfies it), the map to Montgomery form (it takes no point with nonzero x to the curve), the scaling theorem (divides where it must multiply), the claim that A = 1 is singular, and one hexadecimal coordinate of the base point.", "quantifier": "every point of the curve; every curve coefficient for the scaling theorem", "why_tests_cant": "Order claims need scalar multiplication by L for every candidate and a proof that no smaller one exists; the wrong maps fail at all points, which one example does not show.", "anchors": ["docs/main.tex: Definition, Order, Conversion maps, Choice of Generator and Base Points, thm-scale", "sage_codes/Point computation", "sage_codes/Safe Curve code", "src/constants.rs: BASEPOINT"]}
{"id": "C104", "title": "Points with unreduced coordinates", "statement": "Coordinates are public and from_bytes accepts values up to 2^256-1, so points with coordinates of p or more exist. Addition, doubling, scalar multiplication (operator, left to right, by the cofactor, by powers of two), all validity checks, Ristretto equality and the conversion to extended coordinates give exactly the same result as for the reduced coordinates; so do Edwards equality, compression and the conversion to affine coordinates where Z is not a multiple of p. A nonzero multiple of p as Z gives the affine point (0, 0) instead of a panic, and any two such points are equal. Equality of affine points distinguishes two forms of one point. Negation is right exactly if X and T are at most p; in that case subtraction and multiplication with the non-adjacent form are right too. Otherwise a valid point equal to the identity exists whose negative, and whose multiple by 3 with the non-adjacent form, leave the curve. Ristretto compression of the base point with Y + p gives another encoding.", "quantifier": "all coordinate tuples that from_bytes can produce, all scalars", "why_tests_cant": "There are up to sixteen forms of every coordinate; tests use reduced ones.", "anchors": ["src/edwards.rs: EdwardsPoint, ProjectivePoint, AffinePoint", "src/ristretto.rs: RistrettoPoint::compress", "src/backend/u64/field.rs: FieldElement::from_bytes, Neg, Sub"]}
{"id": "C105", "title": "Scalars that are not below L", "statement": "The limbs of a scalar are public and the order L is itself a public scalar constant. Addition is right modulo L for sums below 2^260 but subtracts L only once, so it is reduced exactly for sums below 2L. Subtraction a - b is right modulo L exactly if b is at most a + L, negation exactly up to L. Exponentiation is right if the odd part of the exponent is at most 2L; the exponent 2L + 1 acts like 1 instead of 3. Signed digit expansions of widths 2 to 5 of scalars from L up to 2L denote the scalar n for even n and for n whose residue modulo 2^w is below 2^(w-1); otherwise they denote n - L - 1. Multiplication with the non-adjacent form by such n gives (n - L - 1) P if n is 3 modulo 4, n P if n is below 2^251 / 3, and (n - 2^250) P otherwise. In particular the multiplication by L with the non-adjacent form gives -P, where the operator gives L P.", "quantifier": "all scalars with 52-bit limbs, all valid points, all builds", "why_tests_cant": "Tests use reduced scalars; the failures depend on residues of the scalar and its size.", "anchors": ["src/backend/u64/scalar.rs: Add, Sub, Neg, Pow, compute_NAF, compute_window_NAF", "src/edwards.rs: binary_naf_mul", "src/backend/u64/constants.rs: L"]}
{"id": "C106", "title": "Documented costs in field operations", "statement": "The documentation states what point operations cost in field operations. Conversion from projective to extended coordinates costs 3M + 1S as documented. Doubling an extended or a Ristretto point is documented as 4M + 4S + 1D but performs an addition: 9M + 1D and 7 additions, no squaring. Projective doubling costs 3M + 4S + 2D and 6 additions (documented 3M + 4S + 1D and 7 additions; the factor 2 is a multiplication). Conversion to affine coordinates costs 2M + 1I (documented 3M + 1I). Extended addition costs 9M + 1D + 7a and subtraction 9M + 2D + 9a, projective addition 10M + 1S + 1D + 7a and subtraction one more addition. The totals of the three multiplication functions follow: with w ones among l binary digits the operator performs 9(w + l) multiplications and no squaring on extended points, and 10w + 3l multiplications and w + 4l squarings on projective points.", "quantifier": "all points, all builds; for the totals all points with reduced coordinates and all scalars below L", "why_tests_cant": "Tests observe results, not the operations performed; the totals depend on the scalar.", "anchors": ["src/edwards.rs: Add, Sub, Double, From, double_and_add, ltr_bin_mul, binary_naf_mul", "src/ristretto.rs: Double"]}
{"id": "C107", "title": "What control flow of digit expansions and powers reveals", "statement": "An observer of the branches taken by the signed binary expansion of a scalar learns the scalar, and so does an observer of a multiplication that uses it; nothing about the point is shown. The windowed expansion with widths 2 to 5 shows exactly the sign of every digit and, at every position, whether zero, one or which leading limb is left; the size of the digits stays hidden, so that different scalars leave the same record. The windowed multiplication reads its table at the digits, and branches together with table indices determine the scalar. The power of scalars shows the exponent and nothing about the base.", "quantifier": "all reduced scalars, exponents and bases, points with reduced coordinates, both build profiles", "why_tests_cant": "Tests observe results, not control flow; independence is a statement about pairs of runs for all inputs.", "anchors": ["src/backend/u64/scalar.rs: compute_NAF, compute_window_NAF, mods_2_pow_k, From<i8>, Pow", "src/edwards.rs: binary_naf_mul, window_naf_mul"]}
{"id": "C108", "title": "What control flow of square roots, encodings and the map to the group reveals", "statement": "An observer of the branches taken by a square root learns exactly whether the element is zero, a fourth power, another square or no square, and nothing about the requested sign. The square root of a ratio with a nonzero dividend shows its divisor completely, because the division inverts it in variable time. Hence: compressing an Edwards point shows Z, and X and Y up to sign; compressing a point of the prime order group shows (Z^2 - Y^2)(XY)^2, so that two representatives of one point leave the same record only if their Z differ by a sixth root of one; decoding shows the encoding up to at most four candidates; the Elligator map shows its argument up to at most four candidates and the map from 64 bytes both halves up to sixteen.", "quantifier": "all reduced field elements and signs, all valid Edwards points, all reduced coordinates, all encodings of nonnegative elements, all 64 byte strings, both build profiles", "why_tests_cant": "Tests observe results, not control flow; the claims are about pairs of runs for all inputs.", "anchors": ["src/backend/u64/field.rs: ModSqrt, InvSqrt, SqrtRatioI, Div, is_positive", "src/edwards.rs: EdwardsPoint::compress, find_xx", "src/ristretto.rs: compress, decompress, elligator_ristretto_flavor, from_uniform_bytes"]}
{"id": "C109", "title": "Contracts of the equality and order traits", "statement": "The order of field elements and scalars is a total order on all limbs: dual, transitive, and Equal only for identical limbs. Equality of field elements, scalars, affine points and compressed points is reflexive, symmetric and transitive on all values. Equality agrees with Equal for all elements the byte decoders return, but not for all values: limbs [2^56,0,0,0,0] are both equal to zero and greater than zero. Equality of extended and projective points is an equivalence for nonzero Z, on the curve or not, and panics when a tuple with Z = 0 is compared with itself. Equality of the prime order group is reflexive and symmetric, transitive through every tuple whose X and Y are not both zero, and every tuple equals a tuple with X = Y = 0, so it is not transitive on all values.", "quantifier": "all limbs; all coordinates with reduced (extended, projective) or 52 bit (Ristretto) limbs; all byte strings; both build profiles", "why_tests_cant": "Trait contracts quantify over pairs and triples of all values, including those the library does not produce itself.", "anchors": ["src/backend/u64/field.rs: PartialOrd for FieldElement", "src/backend/u64/scalar.rs: Ord/PartialOrd for Scalar", "src/field.rs, src/scalar.rs: PartialEq, ConstantTimeEq", "src/edwards.rs, src/ristretto.rs, src/montgomery.rs: ConstantTimeEq, PartialEq"]}
{"id": "C110", "title": "What the remaining point functions reveal through control flow", "statement": "Validity checks of affine, projective and extended points, conversions to extended coordinates, four-element cosets and multiplication by the cofactor take the same branches for all points. Multiplication by a power of two reveals the exponent and nothing else. Projective equality reveals the two Z coordinates; the Ristretto validity check reveals the Z of the multiple by the order. Looking for a point with a given y, and decoding an Edwards encoding, reveal y up to sign and nothing else, not even the sign bit. Encoding an Edwards point reveals Z, Y up to sign and the sign bit. Generating a random point reveals the whole point: two runs with the same branches return the same point. Negating an encoding reveals y up to sign and, unless y is 1 or -1, the sign bit, hence up to the sign of y the whole input.", "quantifier": "for all canonical points, all byte strings, all generators and both build modes", "why_tests_cant": "A test observes results, not the sequence of branches, and equality of branch records concerns all pairs of inputs.", "anchors": ["src/edwards.rs: ValidityCheck impls, From impls, coset4, new_from_y_coord, new_random_point, decompress, compress, Neg for CompressedEdwardsY", "src/edwards.rs: mul_by_cofactor, mul_by_pow_2", "src/ristretto.rs: ValidityCheck for RistrettoPoint", "src/backend/u64/scalar.rs: two_pow_k"]}
{"id": "C111", "title": "Small subgroups", "statement": "Multiples of an Edwards point by two scalars compare equal, and have the same encoding, exactly if the scalars agree modulo the order of the point. That order is one of 1, 2, 4, 8, L, 2L, 4L, 8L, with 1, 1, 2, 4, L-1, L-1, 2(L-1), 4(L-1) points. Exactly 64 byte strings decode to points of order at most eight: those whose low 252 bits are one of four values; one of these encodings, given in bytes, decodes to a valid point whose multiple by a secret scalar shows the scalar modulo 8. A point of order 8L does the same after multiplying the result by the public constant L. Multiplying the point by the cofactor first prevents this: multiples then agree only for equal scalars, or always if the point had small order. Multiplying the secret by 8 with scalar arithmetic does not: for a point of order 8 it shows the floor of 8n/L, the upper three bits. For a decoded Ristretto point other than the identity, multiples by different scalars have different encodings.", "quantifier": "for all valid points, all byte strings and all pairs of scalars below L", "why_tests_cant": "Tests multiply honest points; these statements concern all points an adversary may send, and all pairs of secrets.", "anchors": ["src/edwards.rs: CompressedEdwardsY::decompress, Mul<Scalar> for EdwardsPoint, mul_by_cofactor, compress", "src/ristretto.rs: CompressedRistretto::decompress, Mul<Scalar> for RistrettoPoint, compress", "src/backend/u64/constants.rs: L"]}
{"id": "C112", "title": "Printed forms and limb access", "statement": "The text that Debug (or Display, for field elements) prints determines the value: field elements and scalars all five limbs, reduced or not; encodings all 32 bytes; points every coordinate limb. So a log of a secret reveals it fully and two values that print alike are interchangeable. Values of different types never print alike, except that a Ristretto point prints as the Edwards point it contains. The converse to equality fails: two points that compare equal, also as Ristretto points, may print differently. The alternate form {:#?} of the two types that derive Debug (Ristretto encodings, Montgomery points) determines the bytes too, differs between the two and from the plain form, and takes 36 lines. Reading or writing a limb by index panics exactly for indices from five; a number is the sum of its limbs weighted with powers of 2^52; a write changes only that limb, and changes the number by the weighted difference.", "quantifier": "for all limb values, byte strings, points and indices", "why_tests_cant": "Tests print a few values; that no two values share a text is a statement on all pairs.", "anchors": ["src/backend/u64/field.rs: Debug, Display, Index, IndexMut for FieldElement", "src/backend/u64/scalar.rs: Debug, Index, IndexMut for Scalar", "src/edwards.rs: Debug for CompressedEdwardsY, EdwardsPoint, ProjectivePoint, AffinePoint", "src/ristretto.rs: Debug for CompressedRistretto, RistrettoPoint", "src/montgomery.rs: Debug for MontgomeryPoint"]}
{"id": "C113", "title": "How long the operations run", "statement": "Every operation with a loop of variable length ends, after a number of rounds that depends on the operands alone and not on the build. A power takes one round for each bit of the exponent, a multiple of a point one for each bit of the scalar, on every point type. Inverting a takes k rounds with p + a <= 2^k <= 2*p*a, so from 253 to 505 for reduced operands, and exactly 253 for one. The residue symbol and square roots of nonzero elements take 252 in their longest loop. Signed digits, plain or of widths 2 to 5, take one round for each position up to the last nonzero digit.", "quantifier": "for all operands, exponents, scalars and build settings", "why_tests_cant": "Tests show that chosen operands finish; a bound on all of them, and that no operand finishes earlier than stated, is a statement on all operands.", "anchors": ["src/backend/u64/field.rs: Pow, mod_sqrt, legendre_symbol, inverse, phase1", "src/backend/u64/scalar.rs: Pow, compute_NAF, compute_window_NAF", "src/edwards.rs: Mul, double_and_add", "src/ristretto.rs: Mul"]}
{"id": "C114", "title": "What roots, encodings, hashing and windowed multiplication cost", "statement": "Counted in field operations (inversions apart), a power costs a multiplication for each bit of the exponent and one more for each bit that is set; squarings are done as multiplications. The residue symbol costs 324 multiplications for every element. A square root costs nothing for zero, 324 multiplications for an element without root, 1291 for a fourth power and 1298 with 2 squarings for other squares. The square root of a ratio costs two inversions and 1617 or 1624 multiplications. Encoding or decoding a curve point costs nothing worth mentioning when x is zero, and otherwise one of two amounts according to whether x is a square; strings that are no encoding are rejected after 325 multiplications. Encoding a Ristretto point outside the class of the identity costs one root of a ratio, with one more multiplication by a constant exactly if the point is not the double of a curve point, and three more such multiplications if the representative has to be rotated. A Ristretto string that is not a reduced non-negative element is rejected without any field operation. Comparing two curve points costs two inversions, two Ristretto points four multiplications; the validity test of a Ristretto point 2859. Hashing costs at most two roots of ratios. Windowed multiplication costs 250 doublings whatever the width and one addition for each nonzero digit.", "quantifier": "for all reduced elements, exponents, points, byte strings and scalars", "why_tests_cant": "A test can time or count chosen inputs; that the cost takes exactly these values and depends on nothing else is a statement on all inputs.", "anchors": ["src/backend/u64/field.rs: Pow, legendre_symbol, ModSqrt, SqrtRatioI, InvSqrt, Div", "src/edwards.rs: compress, decompress, new_from_y_coord, ct_eq, is_valid, find_xx, window_naf_mul", "src/ristretto.rs: compress, decompress, ct_eq, is_valid, elligator_ristretto_flavor, from_uniform_bytes, Sub"]}
{"id": "C115", "title": "Every program written against the library computes what it says", "statement": "Take any program that calls the functions of the library on field elements, scalars (bits, residues and digit expansions included), bytes of a random generator, points in the three coordinate systems and Ristretto points, with any computation on ordinary data in between, branches, options, lists, loops over lists and counted loops. On inputs that stand for given mathematical values it always ends: it panics exactly when its meaning over residues, curve points and the group of order L panics, and otherwise returns a value that stands for the meaning. So such a program cannot tell a debug build from a release build, nor two representations of one value, and programs that return ordinary data return the same data. The only way to leave this is to decode a field element from bytes at or above p. Conversely two values that stand for different mathematical values are told apart by some program.", "quantifier": "for all programs, all inputs that are reduced or represent points, all builds", "why_tests_cant": "A test runs one program on a few inputs; the statement is about all programs.", "anchors": ["src/backend/u64/field.rs", "src/backend/u64/scalar.rs", "src/edwards.rs", "src/ristretto.rs", "src/traits.rs"]}
{"id": "C116", "title": "Programs that branch on public data only do not leak secrets through control flow", "statement": "Take any program that holds secret field elements, scalars, points, comparison results and bytes, calls the arithmetic, comparison, selection, encoding and point functions of the library on them (powers and multiplications with public exponents and scalars), computes with public data as it likes, and branches and loops on public data only. Two runs with the same public inputs take the same branches, inside the library and outside, exactly if the values the program publishes on purpose are the same; then they end in the same way and return the same public results. A program that publishes nothing takes the same branches for all secrets.", "quantifier": "for all programs of that kind, all reduced secrets, all public inputs, all builds", "why_tests_cant": "Tests see results, not branches, and the statement is about all programs and all pairs of secrets.", "anchors": ["src/backend/u64/field.rs", "src/backend/u64/scalar.rs", "src/edwards.rs", "src/ristretto.rs", "src/traits.rs"]}
{"id": "C117", "title": "The functions of the Sage scripts", "statement": "The helper functions the curve parameters were computed with do what they are used for. Extended Euclid ends on all integers with a combination whose absolute value is the gcd; the modular inverse is found for positive arguments exactly if it exists, and never for negative ones; the square root ends for every odd prime and returns a root of every square, and on a non-square returns a number that is no root without saying so; multiplication of points gives the multiple for natural numbers and never ends for negative ones; the expansion in powers of two adds up to its argument; the change to Weierstrass form keeps the curve, for every prime above three and every coefficient, and the printed numbers are right. Two printed searches do not do what their comments say: the search for the curve keeps a coefficient with A^2-4 a square, and the search for the base point tries to take a root of a non-square at u = 3.", "quantifier": "for all integers, primes, groups and coefficients", "why_tests_cant": "The scripts print a few results; whether the functions are right on other inputs, or end at all, is not visible.", "anchors": ["sage_codes/sage_weierstrass_code: egcd, modinv, modular_sqrt", "sage_codes/Point computation : mult, findBasepoint", "sage_codes/Safe Curve code: expand2", "sage_codes/curve_derivation: get_A"]}
{"id": "C118", "title": "What control flow of ordering, sign tests, decoding and random generation reveals", "statement": "An observer of the branches taken by a comparison of field elements or scalars learns, for each of the five prefixes of the numbers at 52-bit boundaries, how the prefixes compare, and nothing else. The sign test shows which prefixes of the element are zero and how they compare with those of (p-1)/2. Decoding a scalar shows how the prefixes of the encoded number compare with those of L-1, so that numbers below 2^249 all look the same and are told from all others. Generating a random scalar or field element shows nothing about the result, and neither do the conversions to and from Montgomery form.", "quantifier": "for all pairs of elements with 52-bit limbs, all byte strings and all generator outputs, in both builds", "why_tests_cant": "Which inputs take the same path through early-exit loops is a statement about pairs of runs over all inputs.", "anchors": ["src/backend/u64/field.rs: cmp, partial_cmp, is_positive, to_montgomery, from_montgomery", "src/backend/u64/scalar.rs: cmp, from_bytes, to_montgomery, from_montgomery", "src/scalar.rs: Scalar::random", "src/field.rs: FieldElement::random"]}
{"id": "C119", "title": "What random scalars hide", "statement": "With uniformly random bytes from the generator, the outcome of any test on a random scalar differs in probability from that on a uniform canonical scalar by at most (L-2^249)/L, which is below 2^-125, and one test attains it; random field elements in contrast are told from uniform ones with probability above one half. Consequently, whatever test is applied: a scalar plus a random scalar, a Pedersen commitment with a second generator that is not the identity, and a point other than the identity times a random scalar, each encoded, differ for two secrets in probability by less than 2^-125; and the commitment and answer of a Schnorr prover differ by less than that from those made from a random answer and the public key without the secret. Blinding by a scalar other than zero is undone by the power L-2 of it: unblinding the evaluation of a blinded point gives the encoding of the evaluation of the point.", "quantifier": "for all secrets, points, challenges, keys and all sets of outcomes", "why_tests_cant": "A statistical distance of 2^-125 cannot be measured, and the claim is about every possible test.", "anchors": ["src/backend/u64/scalar.rs: Scalar::random", "src/backend/u64/field.rs: FieldElement::random", "src/ristretto.rs: Mul, Add, Sub, compress, decompress", "src/backend/u64/scalar.rs: Add, Mul, Pow, to_bytes"]}
{"id": "C120", "title": "Proving ownership of one of many keys", "statement": "For any list of encoded keys, the proof made with the secret of one of them (one honest answer, the answers for the other keys made up, the challenges adding up to the one received) is accepted wherever the key stands, for every challenge and all random choices. Every accepted proof is made by the owner of any given key of the list for exactly one choice of the random scalars, so it does not tell which key is owned. From two accepted proofs with the same commitments for different challenges the secret of one of the keys is computed, and if an owner uses the same random scalars for two challenges it is the own secret. For a challenge known beforehand an accepted proof is made without a secret. The verifier returns on all byte strings and rejects whenever a key or commitment does not decode or the numbers of parts and keys differ.", "quantifier": "for all lists of keys of any length, all positions, secrets, challenges and random scalars", "why_tests_cant": "The proofs are counted over all random choices for lists of any length; a test sees one run, and that no wrong proof is accepted cannot be seen from the accepted ones.", "anchors": ["src/lib.rs: purpose of the library (set inclusion proofs)", "src/ristretto.rs: Mul, Add, Sub, ct_eq, compress, decompress", "src/backend/u64/scalar.rs: Add, Sub, Mul, Pow, ct_eq"]}
{"id": "C121", "title": "The curve inside the scalars of Ristretto255", "statement": "The conversions between field elements and Ristretto255 scalars are one to one between canonical field elements and reduced scalars and carry addition, subtraction, negation and multiplication of the library to those of Ristretto255 scalars. Pairs of reduced scalars that satisfy the curve equation are exactly the converted affine coordinates of the points of the library. The addition equations x3(1+d x1x2y1y2)=x1y2+y1x2, y3(1-d x1x2y1y2)=y1y2+x1x2 have exactly one solution, the converted sum that the library computes. The equations for multiplication by bits (each bit is zero or one, each step adds the chosen entry of a table of doublings) can be solved exactly when the bits are those of a scalar and the result is the product the library computes. The equations of multiplication of the base point by 250 or more bits together with those for membership in a list of fewer than p keys have a solution exactly when some private key has a public key in the list.", "quantifier": "for all canonical field elements, valid points, scalars, numbers of bits and lists of keys", "why_tests_cant": "An argument system proves that the equations have a solution; that no other solutions exist than the intended ones is a statement about all assignments.", "anchors": ["src/lib.rs: embedding into the Ristretto scalar field", "src/backend/u64/field.rs: From<Ristretto255Scalar>, Into<Ristretto255Scalar>", "src/field.rs: Into<Scalar>", "src/edwards.rs: From<EdwardsPoint> for AffinePoint, Add, Double, Mul", "src/constants.rs: EDWARDS_D"]}
{"id": "C122", "title": "Digit expansions of every scalar with 52-bit limbs", "statement": "For every scalar n with 52-bit limbs and width w from 2 to 6 the windowed expansion and the non-adjacent form follow this rule: take the signed residue of an odd number as digit, zero for an even one, subtract it, halve; but if the digit is negative and the number would be L or more without it, L + 1 is lost as well. If something is left after 256 digits the call panics, otherwise it returns exactly these digits. Only the first eleven digits can lose anything. The digits denote n - (L + 1) m, where m in [0, 2^11) adds up the places of the losses; they are right, and right modulo L, exactly if nothing is lost. No scalar up to 2^255 panics, in the non-adjacent form none below 2^257/3; from there on it panics if nothing is lost; nonzero multiples of 2^256 panic for every width. Multiplication with the non-adjacent form panics exactly if the expansion does, and otherwise gives n - (L + 1) m - 2^250 r times the point, r being what is left after 250 digits, in all three kinds of points. Multiplication of the base point with the table of odd multiples panics exactly if the expansion does; otherwise each of the first 250 digits k counts as 2k - sign k, so that with width 2 it agrees with the non-adjacent form.", "quantifier": "for all scalars with 52-bit limbs, widths 2 to 6, points and both build profiles", "why_tests_cant": "The limbs of scalars are public and nothing reduces them on the way in; which of the 2^260 values are expanded wrongly is decided by a carry into the modular subtraction that happens for few values of each residue.", "anchors": ["src/backend/u64/scalar.rs: compute_NAF, compute_window_NAF, mods_2_pow_k, half_without_mod, Sub, From<i8>", "src/edwards.rs: binary_naf_mul, window_naf_mul", "src/ristretto.rs: binary_naf_mul"]}
{"id": "C123", "title": "The safe curve script", "statement": "The script that judges curves verifies only primes, whatever the primality test of Sage answers. If it calls a curve safe, then p and l are prime, l does not divide p and pi l/4 is at least 4^100; the embedding degree, if it is written, is the order of p modulo l and at least (l-1)/100; the equation is that of an elliptic curve and both points satisfy it; in short Weierstrass form the base point has order exactly l, one point has order 2 and two have order 4, there is a Montgomery ladder and b is not 0. If the number of points keeps Hasse's bound and l^2 > 16p, the written trace and fundamental discriminant are the true ones, the discriminant is below -2^100, the number of points is even, and the number written for the twist is the largest prime factor of its order and passes the same tests. Given the Montgomery form of this curve, the base point with first coordinate 4 and a file with the 96 primes needed, it writes embedding degree (L-1)/15, the true trace, cofactor 2 2 2, the discriminant, and for the twist cofactor 2 2 and embedding degree (q-1)/4, and calls the curve safe exactly if it is declared rigid. It also calls it safe if the file lacks a factor of L-1, so that the embedding degree remains unverified.", "quantifier": "for all inputs of the script, primality tests, files of primes, points on the curve and sufficient fuel", "why_tests_cant": "The script has no tests; it decides by testing large numbers whether a curve is fit for use, and a wrong verdict would show only in an attack.", "anchors": ["sage_codes/Safe Curve code: verify, requirement"]}
{"id": "C124", "title": "The verdict of the unit tests", "statement": "Each of the 92 unit tests that run by default passes, with overflow checks and without. The two tests that draw random values pass whatever the generator returns. The test of windowed multiplication that is commented out would fail: its first three assertions hold, and the fourth, with width 5 and the scalar L-2, does not, in either kind of build.", "quantifier": "every unit test of the crate, also those that need the rand feature, with every sequence the generator may return, and the one that is commented out; both kinds of build and every loop budget from 1000 on", "why_tests_cant": "a run of the tests shows one kind of build and one draw of the random values, and a test that is commented out shows nothing", "anchors": ["src/backend/u64/field.rs tests", "src/backend/u64/scalar.rs tests", "src/edwards.rs tests", "src/ristretto.rs tests"]}
{"id": "C125", "title": "Texts of the number tools", "statement": "The number tools accept a text exactly if it is a numeral: at most one plus sign, then at least one digit of the radix with underscores anywhere but in front. Every other text panics, among them negative, empty and 0x-prefixed ones, and so does any radix outside 2 to 36. For a numeral of any length the splitting tools return the limbs of its number mod 2^260 (or 2^255 for base 51) without panic; the joining tools print the decimal numeral of the limbs, reduced or not; splitting then joining prints the same decimal text back below 2^260, and joining then splitting recovers the limbs. Limbs are read back from decimal digits, at least one, after at most one plus sign, with a value below 2^64, and from nothing else. The byte tool prints the shortest nonempty list of bytes, and the tool for the other direction prints the number back. The radix tool prints the decimal numeral of the same number. The point tool prints a point exactly as Debug of the library prints a point with these limbs. The Montgomery demonstration panics for even moduli and otherwise prints the right values for all residues. What `phase1` prints never makes it panic, and is exactly the state after every round in limbs, the reduced value if it reduces, and the result. Running the tool prints the limbs of the halving constant of the scalars, which is the inverse of two mod L, and of 2^248.", "quantifier": "for all texts, radixes, numbers, limbs and byte strings", "why_tests_cant": "Infinitely many texts; tests run a few", "anchors": ["tools/src/main.rs: hex_bytes_le, num_from_bytes_le, from_radix_to_radix_10, to_field_elem_51, to_scalar_base_52, from_scalar_base_52, from_field_elem_base_51, reduction, phase1, EdwardsPoint::new, main"]}
{"id": "C126", "title": "Ristretto points outside the even subgroup", "statement": "The field of `RistrettoPoint` is public, so any curve point can be wrapped. Compressing and decompressing gives an equal point back exactly for the doubles of curve points, which are half of the curve. For every other curve point the encoding is either rejected or decodes to a different group element, which has the same encoding; both happen. Equal points always have equal encodings, among points that are not doubles equal encodings mean equal points, and no three different points share an encoding. Sums and differences round trip exactly when both or none of the points are doubles; a scalar multiple of a point that is not a double round trips exactly when the scalar is even, so a rejected encoding reveals an odd scalar. Points accepted by `is_valid` always round trip. With all curve points wrapped, `==` distinguishes exactly 2L points, twice as many as there are strings that decode.", "quantifier": "every valid point, every representative, every scalar below 2^256, every build; witnesses", "why_tests_cant": "The points with a wrong round trip return bytes without any error, and the behaviour depends on quadratic residuosity; tests only wrap multiples of the base point", "anchors": ["src/ristretto.rs: RistrettoPoint, RistrettoPoint::compress, CompressedRistretto::decompress, ConstantTimeEq for RistrettoPoint", "src/backend/u64/field.rs: inv_sqrt, sqrt_ratio_i"]}
{"id": "C127", "title": "Texts of the Python scripts", "statement": "Run under Python 2, the inversion script prints, for every number from 1 to p - 1 put in place of the one it contains: the almost inverse y as limbs and in decimal, the number k of rounds, the limbs of p, one numbered line of limbs for each of the k - 253 halvings, and the final value both in decimal and as limbs. x y = 2^k and every line's value is half of the one before mod p. The value it labels `ainv` is below p and equals 2^253 / x, never 1 / x. For zero it prints p as the inverse of zero, without error. The printed limbs are the five lowest digits in base 2^52 of any natural number. The root script prints `[0]` for multiples of p, `[]` for numbers without a square root, and otherwise the two roots r and p - r, as long integers. For the numbers that the scripts contain, the final value and the roots are stated as numbers.", "quantifier": "for all numbers in place of the ones in the scripts (all integers for the roots)", "why_tests_cant": "Scripts without tests; the numbers they may be given cannot be enumerated", "anchors": ["tools/kalinski_inv.py: fieldElement, phase2, AlmostMontInv", "tools/tonelli.py: prime_mod_sqrt"]}
{"id": "C128", "title": "Sharing a secret among many", "statement": "Shares of a secret scalar, made by evaluating a polynomial with scalar arithmetic, give the secret back from as many shares as there are coefficients, for any distinct scalars as indices and any number of shares at least that. One share less tells nothing: for any values at distinct indices other than zero and any secret, exactly one choice of the other coefficients deals those shares. Against the published encodings of the coefficients times the base point a share is accepted exactly if it is the one dealt. Whoever publishes encodings that decode is bound to one list of coefficients; if one does not decode, every share is rejected without panic. Any accepted shares, as many as there are encodings, recover the scalar behind the first encoding, whoever dealt them. Encodings of a point times the shares combine to the encoding of the point times the secret. Shares of two secrets add up to shares of the sum.", "quantifier": "for all secrets, coefficients, numbers of shares, indices, points, published byte strings and builds", "why_tests_cant": "Any number of parties, all polynomials over the scalars and all byte strings a dealer may send", "anchors": ["src/backend/u64/scalar.rs: Add, Sub, Mul, Pow", "src/ristretto.rs: compress, decompress, ct_eq, Add, Mul"]}
{"id": "C129", "title": "Proofs of equal logarithms, and many proofs at once", "statement": "With points sent as encodings: the proof that two points have the same logarithm to two bases is accepted if made honestly; two accepted answers to different challenges for the same commitments give a scalar that is the logarithm of both; so if the logarithms differ, at most one challenge can be answered, whatever bytes were sent. The accepted proofs are exactly those computed backwards from challenge and answer without the logarithm. A batch of Schnorr proofs that are all accepted one by one is accepted by one weighted check for all weights; a proof that is rejected alone, also because its bytes do not decode, passes at any place of a batch for at most one of the L values of its weight, whatever the other proofs and weights are.", "quantifier": "for all bases, secrets, nonces, challenges, answers, byte strings, batches of any length, weights and builds", "why_tests_cant": "Claims about what no prover can do, over all byte strings and scalars, and batches of any length", "anchors": ["src/ristretto.rs: compress, decompress, ct_eq, Add, Sub, Mul", "src/backend/u64/scalar.rs: Add, Sub, Mul, Pow"]}
{"id": "C130", "title": "Proving that a committed value lies in a range", "statement": "With commitments sent as encodings: the proof that a commitment holds zero or one is accepted if made honestly for either bit; two accepted proofs with the same commitments for different challenges give a bit and a blinding that open the commitment; and if the second generator is not the identity, an accepted proof fits either bit, with exactly one opening and one choice of random scalars each, so it does not tell which. Commitments to the bits that into_bits gives, with any blindings, add up with the powers of two to a commitment to the scalar, for every canonical scalar below 2^n and n up to 249. Accepted proofs for all of n commitments, for two challenges, open their weighted sum to a value below 2^n.", "quantifier": "for all second generators, bits, blindings, nonces, challenges, answers, byte strings, values, lists of up to 249 commitments and builds", "why_tests_cant": "Claims about what no prover can do and about what no verifier can tell, over all byte strings and scalars", "anchors": ["src/ristretto.rs: compress, decompress, ct_eq, Add, Sub, Mul, Double", "src/backend/u64/scalar.rs: Add, Sub, Mul, into_bits"]}
{"id": "C131", "title": "The inner product argument", "statement": "With vectors of 2^n scalars committed in one Ristretto point together with their inner product, and the argument that halves them n times with encodings sent each time: the honest run sends n pairs of encodings and is accepted for exactly one group element, the commitment. If the point for the product is not the identity, the honest run for a commitment with another value than the inner product is rejected. The verifier who halves the generators and the one who computes a single sum with the products of challenges always give the same answer and never panic, whatever encodings and scalars were sent, also with wrong numbers of encodings or ones that do not decode. No run is accepted for two different group elements. Openings of the halved commitment for three challenges with different squares give, by a computation with the library's scalars, an opening of the commitment before halving.", "quantifier": "for all n, vectors of canonical scalars, generators, nonzero challenges, byte strings and builds", "why_tests_cant": "Vectors of every length and all byte strings; the equality of the two verifiers is a statement on all transcripts", "anchors": ["src/ristretto.rs: compress, decompress, ct_eq, Add, Mul", "src/backend/u64/scalar.rs: Add, Mul, Pow"]}

import Verif.Props.TestsEdwards
import Verif.Props.Elligator
import Verif.Props.Docs
import Verif.Props.Programs
import Verif.Proof.EllMap

/-!
# Property C124, third part: the tests of the Ristretto points, and all tests together
-/

set_option exponentiation.threshold 600
set_option maxRecDepth 100000

namespace Zerocaf
namespace Tests

open Props

theorem ris_same (c : Cfg) {P Q : EdPoint} {A B : E} (hP : P.Rep A) (hQ : Q.Rep B) (h : SameClass A B) :
    Ristretto.ctEq c P Q = .ok true := by
  obtain ⟨b, e, hb⟩ := C58_eq_iff c hP hQ
  rw [e, hb.2 h]

theorem Ris.basepoint_compr_decompr_ok (c : Cfg) (hc : c.Enough) : Ris.basepoint_compr_decompr c = .ok () := by
  unfold Ris.basepoint_compr_decompr
  obtain ⟨b, Q, h1, h2, h3⟩ := C60_encode_decode c hc BASEPOINT_rep Bpt_even
  rw [h1, Res.ok_bind, h2, Res.ok_bind, unwrap, Res.ok_bind, show Ristretto.ctEq c Q Ed.BASEPOINT = .ok true from h3]
  rfl

/-! ### The table of encodings -/

/-- The point that decoding returns for each entry of the table. -/
def CERTS : List (ℕ × ℕ) := [
  (0, 1),
  (1693239746637489322085970780851084746190161864886341402706600061968233236901, 2894802230932904885589274625217197696342846543751963042400780375314181700395),
  (1236558985100928767892885163959687915275289885886034207267649853922141399415, 1133295761395807081593112964101401734324454324302644933151319853176109464918),
  (1448197670130027740145450839158914791073165160715451860277488488220543964853, 2341351559268711028854469895545804583822548418691276571343041292720212895104),
  (931933486952935212192516289228363757629012008685202260608337966705163435022, 5181119090233260145189970834637670393224449181691937024538404662089948807853),
  (2985386027279992519177423715539232021720958650868421952745746519718182210813, 5064349902562598254310798801246762367882924484352400730390799218132947095781),
  (1543407112121491101357387466818699572002797475107273529767108165749677706695, 5018076309089596933413560111722417843421642685067050581920686844764170097292),
  (599380968837941250460789593336633708244187422762089795961772223836629502675, 2439152126358057818880417751181093159075573925290356936879745814760797101328),
  (1554104565124427743739582534338241208552749272927274885283796374712295960434, 199426308533359689854527121193026894378809807888090716515353512209368267698),
  (2695052854214608630262045919175770778437548228027876067437248336468723163058, 803448879588874808959931995691447016201541590701170530245674597434118786294),
  (200261940143421847014095902763930265951630874224689322494373734977884790305, 298071654647654067697869141588423882837963683162589013973015026696653490248),
  (2553325375859099899608741774443045823378384821669806652787555053988515713342, 4629035787872119293556389737379114683307860014780519760191162954337826322725),
  (1274947534021754172130924767472917569087854579557624384547981052221373645307, 6777188804687253556051052225759102987430783781772605762140912953433359700925),
  (1792891642231655337140168180294295148865657348341426112437537898087690317513, 4321010417050107789478349171405606104922028413734697189944808947972436125578),
  (2354328486293588275182939473956948427855089747609522842538277628504597722497, 3595270247836226596118959754766076965485486284205310063757005350480285720129),
  (2378021042282175942927402445302911111947699284996006310739765966470778536152, 3195770703545968398791783108427895923339135037486959110400438343272704130532)]

/-- `(x, y)` is the canonical point of the class of `N`, and `e` its encoding. -/
def encCert (N : NP) (x y : ℕ) (e : Bytes32) : Bool :=
  let s := (Field.fromBytes e).val
  decide (y * y % p = (1 + x * x + dNat * (x * x * (y * y))) % p) &&
  (decide (N.X * y % p = N.Y * x % p) || decide (N.X * x % p = N.Y * y % p)) &&
  decide (2 * (x % p) ≤ p - 1) && decide (2 * (x * y % p) ≤ p - 1) && decide (y % p ≠ 0 % p) &&
  decide ((1 + y) % p ≠ 0 % p) && decide (2 * (s % p) ≤ p - 1) && decide ((s * s * (1 + y) + y) % p = 1 % p) &&
  decide ((Field.fromBytes e).Canon) && decide ((Field.toBytes (Field.fromBytes e)).toList = e.toList)

theorem encCert_ok (c : Cfg) (hc : c.Enough) {N : NP} {P : EdPoint} {A : E} {x y : ℕ} {e : Bytes32} (hN : N.Rep A)
    (hP : P.Rep A) (hA : InEven A) (h : encCert N x y e = true) : Ristretto.compress c P = .ok e := by
  unfold encCert at h
  simp only [Bool.and_eq_true, Bool.or_eq_true, decide_eq_true_eq] at h
  obtain ⟨⟨⟨⟨⟨⟨⟨⟨⟨on, cl⟩, px⟩, pt⟩, y0⟩, y1⟩, ps⟩, es⟩, cs⟩, eb⟩ := h
  have sc : SameClass A (ptOfNat x y on) := by
    rw [sameClass_iff]
    have hz := hN.z
    refine cl.imp (fun h => ?_) (fun h => ?_) <;>
    · have := fp_eq h
      rw [Nat.cast_mul, Nat.cast_mul, hN.x, hN.y] at this
      apply mul_right_cancel₀ hz
      show _ = _ * _ * (N.Z : Fp)
      first
        | (show A.x * (y : Fp) * _ = A.y * (x : Fp) * _; linear_combination this)
        | (show A.x * (x : Fp) * _ = A.y * (y : Fp) * _; linear_combination this)
  have can : Canonical (ptOfNat x y on) := by
    refine ⟨sc.even hA, ?_, ?_, ?_, ?_⟩
    · show 2 * ((x : ℕ) : Fp).val ≤ _
      rwa [ZMod.val_natCast]
    · show 2 * (((x : ℕ) : Fp) * ((y : ℕ) : Fp)).val ≤ _
      rwa [← Nat.cast_mul, ZMod.val_natCast]
    · have := nat_ne y0
      rwa [Nat.cast_zero] at this
    · have := nat_ne y1
      rwa [Nat.cast_zero, Nat.cast_add, Nat.cast_one] at this
  have enco : EncOf (((Field.fromBytes e).val : ℕ) : Fp) (ptOfNat x y on) := by
    refine ⟨?_, ?_⟩
    · show 2 * (((Field.fromBytes e).val : ℕ) : Fp).val ≤ _
      rwa [ZMod.val_natCast]
    · have := fp_eq es
      push_cast at this
      show _ * (1 + (y : Fp)) = 1 - (y : Fp)
      linear_combination this
  obtain ⟨A', s, h1, h2, h3, h4⟩ := Ristretto.compress_rep c hc hP hA
  have e1 : A' = ptOfNat x y on := can.unique h2 (sc.symm.trans h1)
  rw [e1] at h3
  have e2 : s = (((Field.fromBytes e).val : ℕ) : Fp) := h3.s_unique enco can.y1
  rw [h4, e2, ← is_enc cs rfl, Res.ok_inj]
  exact Vector.toList_inj.1 eb

def encCerts : NP → List (ℕ × ℕ) → List Bytes32 → Bool
  | _, [], [] => true
  | N, (x, y) :: cs, e :: es => encCert N x y e && encCerts (NP.add N bN) cs es
  | _, _, _ => false

theorem encodeLoop_ok (c : Cfg) (hc : c.Enough) : ∀ (es : List Bytes32) (cs : List (ℕ × ℕ)) (N : NP) (P : EdPoint) (A : E),
    N.Rep A → P.Rep A → InEven A → encCerts N cs es = true → Ris.encodeLoop c es P = .ok () := by
  intro es
  induction es with
  | nil => intros; rfl
  | cons e es ih =>
    intro cs N P A hN hP hA h
    obtain _ | ⟨⟨x, y⟩, cs⟩ := cs
    · cases h
    · rw [encCerts, Bool.and_eq_true] at h
      obtain ⟨R, eR, hR⟩ := Ed.add_rep c hP BASEPOINT_rep
      rw [Ris.encodeLoop, encCert_ok c hc hN hP hA h.1, Res.ok_bind, same_of rfl, Res.ok_bind,
        show Ristretto.add c P Ed.BASEPOINT = .ok R from eR, Res.ok_bind]
      refine ih cs _ R _ (NP.add_rep hN bN_rep) hR ?_ h.2
      obtain ⟨C, rfl⟩ := hA
      obtain ⟨D, hD⟩ := Bpt_even
      exact ⟨C + D, by rw [hD]; abel⟩

theorem Ris.valid_encoding_test_vectors_ok (c : Cfg) (hc : c.Enough) : Ris.valid_encoding_test_vectors c = .ok () :=
  encodeLoop_ok c hc _ CERTS NP.zero _ 0 NP.zero_rep Ed.identity_rep inEven_zero (by decide +kernel)

/-! ### Decoding the identity -/

/-- Compression of coordinates that need not be on the curve. -/
theorem compress_any (c : Cfg) (hc : c.Enough) (X Y Z : Fp) (T : FE) (hz : Z ≠ 0) (hs : IsSquare (xxOf (Y * Z⁻¹))) :
    ∃ b, Ed.compress c ⟨enc X, enc Y, enc Z, T⟩ = .ok b := by
  unfold Ed.compress Aff.ofEd
  simp only [Field.inverse_enc c hc Z hz, Res.ok_bind, Field.mul_enc, Res.pure_eq, findXX_enc c hc,
    modSqrt_of_square c hc false hs, unwrap]
  exact ⟨_, rfl⟩

theorem compress_zero (c : Cfg) (hc : c.Enough) {P : EdPoint} (h : P.Rep 0) : Ed.compress c P = .ok Ed.compressedIdentity := by
  rw [Zerocaf.compress_rep c hc h]
  have hsig : signOf 0 = false := by
    unfold signOf
    rw [← xxOf_pt, EdCurve.Pt.zero_x, zero_mul]
    have : Field.tsRoot (0 : Fp) = 0 := by
      have := tsRoot_nat 0
      rw [Nat.cast_zero] at this
      rw [this, ← Nat.cast_zero]
      exact fp_eq (by decide +kernel)
    rw [this]; simp
  rw [hsig, EdCurve.Pt.zero_y, ← Field.one_enc, Res.ok_inj]
  decide +kernel

theorem Ris.decompress_id_ok (c : Cfg) (hc : c.Enough) : Ris.decompress_id c = .ok () := by
  unfold Ris.decompress_id
  have hb : Field.toBytes (enc 0) = Ristretto.compressedIdentity := by
    rw [← Field.zero_enc]; decide
  have hd := Ristretto.decompress_of c hc canonical_zero encOf_zero
  have hi : Ristretto.ofPt 0 = Ed.identity := by
    unfold Ristretto.ofPt Ed.identity
    rw [EdCurve.Pt.zero_x, EdCurve.Pt.zero_y, zero_mul, ← Field.zero_enc, ← Field.one_enc]
  rw [hb, hi] at hd
  have e0 : Ed.add c Ed.identity Ed.COSET0 = .ok Ed.COSET0 := by obtain ⟨_ | _, n⟩ := c <;> keval
  obtain ⟨R, eR, hR⟩ := Ed.add_rep c Ed.identity_rep COSET1_rep
  obtain ⟨S, eS, hS⟩ := Ed.add_rep c Ed.identity_rep COSET2_rep
  obtain ⟨b1, e1⟩ : ∃ b, Ed.compress c Ed.COSET0 = .ok b := by
    have h := compress_any c hc 1 0 1 Ed.COSET0.T one_ne_zero ⟨Field.iZ, by
      unfold xxOf
      rw [zero_mul, zero_mul, mul_zero, add_zero, div_one, zero_sub, Field.iZ_sq]⟩
    rw [← Field.zero_enc, ← Field.one_enc] at h
    exact h
  have ei := compress_zero c hc Ed.identity_rep
  rw [hd, Res.ok_bind, unwrap, Res.ok_bind, Ed.coset4, e0, Res.ok_bind, eR, Res.ok_bind, eS, Res.ok_bind, Res.pure_eq,
    Res.ok_bind]
  dsimp only
  rw [ei, Res.ok_bind, e1, Res.ok_bind, Zerocaf.compress_rep c hc hR, Res.ok_bind, Zerocaf.compress_rep c hc hS, Res.ok_bind]
  apply rassert_true
  rw [List.any_cons, show Misc.compressedCtEq Ed.compressedIdentity Ed.compressedIdentity = true by decide +kernel,
    Bool.true_or]

theorem Ris.four_torsion_diff_ok (c : Cfg) (hc : c.Enough) : Ris.four_torsion_diff c = .ok () := by
  unfold Ris.four_torsion_diff
  obtain ⟨A', s, h1, h2, h3, e⟩ := Ristretto.compress_rep c hc BASEPOINT_rep Bpt_even
  obtain ⟨D, eD, hD⟩ := Ed.sub_rep c BASEPOINT_rep (Ristretto.ofPt_rep A')
  obtain ⟨⟨V, eV, hV⟩, _⟩ := C51_pow_two c hc hD P1P 2 (by decide)
  have h0 : 2 ^ 2 • (Bpt - A') = 0 := h1
  rw [h0] at hV
  rw [e, Res.ok_bind, Ristretto.decompress_of c hc h2 h3, Res.ok_bind, unwrap, Res.ok_bind, eD, Res.ok_bind, eV, Res.ok_bind,
    compress_zero c hc hV, Res.ok_bind]
  exact rassert_true (by decide +kernel)

theorem Ris.four_coset_eq_basepoint_ok (c : Cfg) : Ris.four_coset_eq_basepoint c = .ok () := by
  obtain ⟨_ | _, n⟩ := c <;> keval

/-! ### Validity -/

theorem ris_valid (c : Cfg) (hc : c.Enough) {P : EdPoint} {A : E} (h : P.Rep A) (hA : ell • A = 0) :
    Ristretto.isValid c P = .ok true := by
  obtain ⟨t, e, ht⟩ := C68_is_valid c hc h
  rw [e, ht.2 hA]

theorem validLoop_ok (c : Cfg) (hc : c.Enough) : ∀ (n : ℕ) (P : EdPoint) (A : E), P.Rep A → ell • A = 0 →
    Ris.validLoop c n P = .ok () := by
  intro n
  induction n with
  | zero => intros; rfl
  | succ n ih =>
    intro P A hP hA
    obtain ⟨R, eR, hR⟩ := Ed.add_rep c hP BASEPOINT_rep
    rw [Ris.validLoop, ris_valid c hc hP hA, Res.ok_bind, rassert_ok, Res.ok_bind,
      show Ristretto.add c P Ed.BASEPOINT = .ok R from eR, Res.ok_bind]
    exact ih R _ hR (by rw [smul_add, hA, ell_Bpt, add_zero])

def x8 : ℕ := 833143195476620884937409792170351124218993918934339224441235522930944363716
def y8 : ℕ := 7063549744937192053489778614189810659316592361826305534376067665236015609521

theorem Ris.validity_check_ok (c : Cfg) (hc : c.Enough) : Ris.validity_check c = .ok () := by
  unfold Ris.validity_check
  obtain ⟨P, e, h⟩ := newFromY_is c hc (x := x8) (y := y8) (a := Field.fromBytes Ris.Y_8L) (by decide +kernel)
    (by decide +kernel) (by decide +kernel) (by decide +kernel)
  obtain ⟨t, et, ht⟩ := C68_is_valid c hc h
  have : t = false := by
    rw [Bool.eq_false_iff]
    intro h
    exact (mult_zero_iff ell x8 y8 (by decide) (by decide +kernel)).not.2 (by decide +kernel) (ht.1 h)
  rw [this] at et
  rw [ris_valid c hc BASEPOINT_rep ell_Bpt, Res.ok_bind, rassert_ok, Res.ok_bind,
    validLoop_ok c hc 16 Ristretto.identity 0 Ed.identity_rep (smul_zero _), Res.ok_bind, e, Res.ok_bind, unwrap, Res.ok_bind,
    ed_valid c h, Res.ok_bind, rassert_ok, Res.ok_bind, et, Res.ok_bind]
  rfl

/-! ### The Elligator map -/

def ex : ℕ := 7234195591943870067174113606251610934476231421115869454123122931558434304939
def ey : ℕ := 2497998351626641297754200770290079216917938908121819519829406718229052088724
/-- The root the map takes for the bytes of the test. -/
def es : ℕ := 4494984812049341233369605497904041160929341861291006459892700244816616635245
/-- The point the map returns. -/
def ax : ℕ := 7234195591943870067174113606251610934476231421115869454123122931558434304939
def ay : ℕ := 2497998351626641297754200770290079216917938908121819519829406718229052088724

def Aex : E := ptOfNat ex ey (by decide +kernel)
def Aell : E := ptOfNat ax ay (by decide +kernel)

theorem EXPECTED_rep : Ris.EXPECTED.Rep Aex := entryOk_rep (by decide +kernel) (ptOfNat_rep ex ey _)

theorem ell_Aex : ell • Aex = 0 := (mult_zero_iff ell ex ey (by decide) _).2 (by decide +kernel)

theorem same_ell : SameClass Aell Aex := by
  rw [sameClass_iff]
  left
  show (ax : Fp) * (ey : Fp) = (ay : Fp) * (ex : Fp)
  rw [← Nat.cast_mul, ← Nat.cast_mul]
  exact fp_eq (by decide +kernel)

theorem Aell_even : InEven Aell := by
  refine SameClass.even same_ell.symm ⟨((ell + 1) / 2) • Aex, ?_⟩
  rw [← add_smul, show (ell + 1) / 2 + (ell + 1) / 2 = ell + 1 by decide, add_smul, ell_Aex, zero_add, one_smul]

/-! The intermediate values of the map on the bytes of the test, as numbers. -/

def eT : ℕ := (Field.fromBytes Ris.ELLIGATOR_BYTES).val
def eR : ℕ := Field.SQRT_MINUS_ONE.val * eT ^ 2 % p
def eU : ℕ := (eR + 1) * (1 + dNat * (p - dNat)) % p
def eV : ℕ := (p - 1 + eR * (p - dNat)) * (eR + dNat) % p
def eN : ℕ := (eR * (eR + (p - 1)) * (dNat + (p - 1)) ^ 2 + (p - eV)) % p

theorem cast_neg_of {a : ℕ} (h : a ≤ p) : ((p - a : ℕ) : Fp) = -(a : Fp) := by
  rw [Nat.cast_sub h, ZMod.natCast_self, zero_sub]

theorem ne_zero_of {a : ℕ} (h : a % p ≠ 0 % p) : (a : Fp) ≠ 0 := by
  have := nat_ne h
  rwa [Nat.cast_zero] at this

theorem ell_map : RfcMap Field.iZ qZ (eT : Fp) Aell := by
  have hd : (dNat : Fp) = dZ := dZ_eq.symm
  have hu : ((eU : ℕ) : Fp) = ((eR : Fp) + 1) * (1 - dZ ^ 2) := by
    unfold eU
    rw [ZMod.natCast_mod, Nat.cast_mul, Nat.cast_add, Nat.cast_add, Nat.cast_mul, cast_neg_of (by decide +kernel), hd,
      Nat.cast_one]
    ring
  have hv : ((eV : ℕ) : Fp) = (-1 - (eR : Fp) * dZ) * ((eR : Fp) + dZ) := by
    unfold eV
    rw [ZMod.natCast_mod, Nat.cast_mul, Nat.cast_add, Nat.cast_add, Nat.cast_mul, cast_neg_of (by decide +kernel),
      cast_neg_of (by decide +kernel), hd, Nat.cast_one]
    ring
  have hN : ((eN : ℕ) : Fp) = (eR : Fp) * ((eR : Fp) - 1) * (dZ - 1) ^ 2 - (eV : Fp) := by
    unfold eN
    rw [ZMod.natCast_mod, Nat.cast_add, Nat.cast_mul, Nat.cast_mul, Nat.cast_pow, Nat.cast_add, Nat.cast_add,
      cast_neg_of (by decide +kernel), cast_neg_of (by decide +kernel), hd, Nat.cast_one]
    ring
  have hr : ((eR : ℕ) : Fp) = Field.iZ * (eT : Fp) ^ 2 := by
    unfold eR
    rw [ZMod.natCast_mod, Nat.cast_mul, Nat.cast_pow]; rfl
  have v0 : ((eV : ℕ) : Fp) ≠ 0 := ne_zero_of (by decide +kernel)
  have hq : qZ = ((Ristretto.SQRT_AD_MINUS_ONE.val : ℕ) : Fp) := rfl
  have nq0 : ((eN : ℕ) : Fp) * qZ ≠ 0 := by
    rw [hq, ← Nat.cast_mul]; exact ne_zero_of (by decide +kernel)
  have s0 : 1 + ((es : ℕ) : Fp) ^ 2 ≠ 0 := by
    have : ((1 + es ^ 2 : ℕ) : Fp) ≠ 0 := ne_zero_of (by decide +kernel)
    rwa [Nat.cast_add, Nat.cast_pow, Nat.cast_one] at this
  refine ⟨eR, eU, eV, es, eR, eN, hr, hu, hv, Or.inr ⟨Or.inr ?_, ?_, Or.inr ?_, rfl⟩, hN, nq0, s0, ?_, ?_⟩
  · intro h
    apply nonsquare_of (eU * eV) (by decide +kernel)
    have : ((eU * eV : ℕ) : Fp) = (eU : Fp) / (eV : Fp) * ((eV : Fp) * (eV : Fp)) := by
      rw [Nat.cast_mul]; field_simp
    rw [this]
    exact h.mul ⟨_, rfl⟩
  · rw [← mul_div_assoc, eq_div_iff v0, ← Nat.cast_pow, ← Nat.cast_mul, ← Nat.cast_mul]
    exact fp_eq (by decide +kernel)
  · rw [ZMod.val_natCast]; decide +kernel
  · show (ax : Fp) = _
    rw [eq_div_iff nq0, hq]
    have := fp_eq (a := ax * (eN * Ristretto.SQRT_AD_MINUS_ONE.val)) (b := 2 * es * eV) (by decide +kernel)
    push_cast at this
    exact this
  · show (ay : Fp) = _
    rw [eq_div_iff s0]
    have := fp_eq (a := ay * (1 + es ^ 2) + es ^ 2) (b := 1) (by decide +kernel)
    push_cast at this
    linear_combination this

theorem elligator_is (c : Cfg) (hc : c.Enough) :
    ∃ P, Ristretto.elligator c (Field.fromBytes Ris.ELLIGATOR_BYTES) = .ok P ∧ P.Rep Aell := by
  obtain ⟨P, A, e, hP, hA⟩ := Ristretto.elligator_map c hc (Field.fromBytes Ris.ELLIGATOR_BYTES) (Field.fromBytes_spec _).1
  refine ⟨P, e, ?_⟩
  rw [← hA.unique ell_map]
  exact hP

theorem Ris.elligator_vs_ristretto_sage_ok (c : Cfg) (hc : c.Enough) : Ris.elligator_vs_ristretto_sage c = .ok () := by
  unfold Ris.elligator_vs_ristretto_sage
  obtain ⟨P, e, h⟩ := elligator_is c hc
  have he := (C61_encoding_identifies c hc h EXPECTED_rep Aell_even (same_ell.even Aell_even)).2
    (ris_same c h EXPECTED_rep same_ell)
  obtain ⟨b, eb⟩ := C60_encode_total c hc ⟨_, EXPECTED_rep⟩
  rw [ris_valid c hc EXPECTED_rep ell_Aex, Res.ok_bind, rassert_ok, Res.ok_bind, e, Res.ok_bind, ed_valid c h, Res.ok_bind,
    rassert_ok, Res.ok_bind, ris_same c h EXPECTED_rep same_ell, Res.ok_bind, rassert_ok, Res.ok_bind, he, eb, Res.ok_bind,
    Res.ok_bind]
  exact rassert_true ((C85_eq b b).2 rfl)

/-! ### The tests that use a generator -/

theorem same_add {A U : E} (h : U.x * U.y = 0) : SameClass A (A + U) := by
  show 4 • (A - (A + U)) = 0
  rw [sub_add_cancel_left, smul_neg, (four_torsion_iff U).2 (mul_eq_zero.1 h), neg_zero]

theorem Ris.four_torsion_diff_random_ok (c : Cfg) (hc : c.Enough) (b : Bytes32) :
    Ris.four_torsion_diff_random c b = .ok () := by
  unfold Ris.four_torsion_diff_random
  obtain ⟨k, ek, hk, _⟩ := random_scalar_val b
  obtain ⟨P, eP, hP⟩ := C45_ristretto c hc BASEPOINT_rep k hk.1 (Scalar.scanon_lt256 hk)
  obtain ⟨Q, R, S, e1, _, hQ⟩ := C57_bad_entry_equal c ⟨_, hP⟩
  obtain ⟨Q', R', S', e1', _, _, _, _, _, ⟨U, ux, uy, hU⟩, ⟨V, vx, vy, hV⟩⟩ := C57_coset4 c hP
  have hR : R' = R ∧ S' = S := by
    rw [e1, Res.ok_inj] at e1'
    simp only [Prod.mk.injEq] at e1'
    exact ⟨e1'.2.2.1.symm, e1'.2.2.2.symm⟩
  rw [hR.1] at hU
  rw [hR.2] at hV
  have hE : InEven (k.val • Bpt) := by
    obtain ⟨D, hD⟩ := Bpt_even
    exact ⟨k.val • D, by rw [hD, smul_add]⟩
  obtain ⟨A', s, h1, h2, h3, e⟩ := Ristretto.compress_rep c hc hP hE
  obtain ⟨N, eN, hN⟩ := Ed.neg_rep c (Ristretto.ofPt_rep A')
  obtain ⟨D, eD, hD⟩ := Ed.add_rep c hP hN
  obtain ⟨_, _, ⟨W, eW, hW⟩⟩ := C51_pow_two c hc hD P1P 2 (by decide)
  have h0 : 2 ^ 2 • (k.val • Bpt + -A') = 0 := by rw [← sub_eq_add_neg]; exact h1
  rw [h0] at hW
  rw [ek, Res.ok_bind, eP, Res.ok_bind, Ristretto.coset4, e1, Res.ok_bind]
  dsimp only
  rw [ris_same c hP hP (SameClass.refl _), Res.ok_bind, rassert_ok, Res.ok_bind,
    show Ristretto.ctEq c P Q = .ok true from hQ, Res.ok_bind, rassert_ok, Res.ok_bind,
    ris_same c hP hU (same_add (by rw [uy, mul_zero])), Res.ok_bind, rassert_ok, Res.ok_bind,
    ris_same c hP hV (same_add (by rw [vx, zero_mul])), Res.ok_bind, rassert_ok, Res.ok_bind, e, Res.ok_bind,
    Ristretto.decompress_of c hc h2 h3, Res.ok_bind, unwrap, Res.ok_bind,
    show Ristretto.neg c (Ristretto.ofPt A') = .ok N from eN, Res.ok_bind, show Ristretto.add c P N = .ok D from eD,
    Res.ok_bind, eW, Res.ok_bind, ris_same c hW (show Ristretto.identity.Rep 0 from Ed.identity_rep) (SameClass.refl _),
    Res.ok_bind, rassert_ok]

theorem randomLoop_ok (c : Cfg) (hc : c.Enough) (rng : ℕ → Bytes64) : ∀ n, Ris.randomLoop c rng n = .ok () := by
  intro n
  induction n with
  | zero => rfl
  | succ n ih =>
    obtain ⟨P, A, e, hP, hA⟩ := C65_new_random_point c hc (rng n)
    obtain ⟨b, Q, h1, h2, _⟩ := C60_encode_decode c hc hP hA
    rw [Ris.randomLoop, e, Res.ok_bind, ed_valid c hP, Res.ok_bind, rassert_ok, Res.ok_bind, h1, Res.ok_bind, h2,
      Res.ok_bind, ih]

/-! ### The test that is commented out -/

theorem window_right (c : Cfg) (hc : c.Enough) (w : ℕ) (h1 : 2 ≤ w) (h2 : w ≤ 5) (n : Sc) (hn : n.SCanon)
    (h : (Vector.ofFn fun j : Fin 256 => digitOf w (cutRest w n.val j.val)).toList.all
      (fun k => k == -1 || k == 0 || k == 1) = true) :
    ∃ S, Ristretto.windowNafMul c n w = .ok S ∧ S.Rep (n.val • Bpt) := by
  obtain ⟨v, S, ev, _, _, eS, _, hi⟩ := C50_exact c hc w h1 h2 n hn
  refine ⟨S, eS, hi.2 fun j => ?_⟩
  obtain ⟨u, eu, hu⟩ := window_is c hc w 256 h1 (by omega) n hn.1 (le_of_lt (lt_trans hn.2 (by decide))) _ rfl
  obtain rfl : v = u := Res.ok.inj (ev.symm.trans eu)
  rw [List.take_of_length_le (by simp), List.take_of_length_le (by simp)] at hu
  rw [← hu, List.all_eq_true] at h
  have := h v[j] (by simp)
  simpa [or_assoc] using this

theorem window_bad (c : Cfg) (hc : c.Enough) (w : ℕ) (h1 : 2 ≤ w) (h2 : w ≤ 5) (n : Sc) (hn : n.SCanon)
    (h : (Vector.ofFn fun j : Fin 256 => digitOf w (cutRest w n.val j.val)).toList.all
      (fun k => k == -1 || k == 0 || k == 1) = false) :
    ∃ S A, Ristretto.windowNafMul c n w = .ok S ∧ S.Rep A ∧ ¬ SameClass (n.val • Bpt) A := by
  obtain ⟨v, S, ev, _, eS, hS⟩ := C50_all_widths c hc w h1 h2 n hn
  obtain ⟨v', S', ev', _, _, eS', _, hi⟩ := C50_exact c hc w h1 h2 n hn
  obtain rfl : v = v' := Res.ok.inj (ev.symm.trans ev')
  obtain rfl : S = S' := Res.ok.inj (eS.symm.trans eS')
  refine ⟨S, _, eS, hS, fun hc' => ?_⟩
  have e := ell_class (by rw [smul_comm, ell_Bpt, smul_zero]) (by rw [smul_comm, ell_Bpt, smul_zero]) hc'
  rw [← e] at hS
  have hd := hi.1 hS
  obtain ⟨u, eu, hu⟩ := window_is c hc w 256 h1 (by omega) n hn.1 (le_of_lt (lt_trans hn.2 (by decide))) _ rfl
  obtain rfl : v = u := Res.ok.inj (ev.symm.trans eu)
  rw [List.take_of_length_le (by simp), List.take_of_length_le (by simp)] at hu
  rw [← hu, List.all_eq_false] at h
  obtain ⟨k, hk, hb⟩ := h
  apply hb
  rw [Vector.mem_toList_iff, Vector.mem_iff_getElem] at hk
  obtain ⟨i, hi', rfl⟩ := hk
  have := hd ⟨i, hi'⟩
  simpa [or_assoc] using this

theorem base_mul (c : Cfg) (hc : c.Enough) (n : Sc) (hn : n.SCanon) :
    ∃ S, doubleAndAdd Ristretto.ops c Ed.BASEPOINT n = .ok S ∧ S.Rep (n.val • Bpt) :=
  C45_ristretto c hc BASEPOINT_rep n hn.1 (Scalar.scanon_lt256 hn)

/-- `L - 2`. -/
def MINUS_TWO : Sc := ⟨Scalar.minusOne.l0 - 1, Scalar.minusOne.l1, Scalar.minusOne.l2, Scalar.minusOne.l3, Scalar.minusOne.l4⟩

/-- The commented-out test fails: its first three assertions hold and the fourth, with width 5, does not. -/
theorem Edw.aaaaa_panics (c : Cfg) (hc : c.Enough) : Edw.aaaaa c = .panic := by
  unfold Edw.aaaaa
  have e215 : Scalar.twoPowK 215 = .ok ⟨0, 0, 0, 0, 2 ^ 7⟩ := by decide
  have e249 : Scalar.twoPowK 249 = .ok ⟨0, 0, 0, 0, 2 ^ 41⟩ := by decide
  have em : Scalar.sub c ⟨0, 0, 0, 0, 2 ^ 41⟩ Scalar.one =
      .ok ⟨2 ^ 52 - 1, 2 ^ 52 - 1, 2 ^ 52 - 1, 2 ^ 52 - 1, 2 ^ 41 - 1⟩ := by
    obtain ⟨_ | _, n⟩ := c <;> keval
  have ek : Scalar.sub c Scalar.minusOne Scalar.one = .ok MINUS_TWO := by obtain ⟨_ | _, n⟩ := c <;> keval
  obtain ⟨a, ea, ha⟩ := base_mul c hc (Scalar.fromU32 2) (by decide)
  obtain ⟨b, eb, hb⟩ := window_right c hc 2 (by decide) (by decide) (Scalar.fromU32 2) (by decide) (by decide +kernel)
  obtain ⟨d, ed, hd⟩ := base_mul c hc ⟨0, 0, 0, 0, 2 ^ 7⟩ (by decide)
  obtain ⟨e, ee, he⟩ := window_right c hc 3 (by decide) (by decide) ⟨0, 0, 0, 0, 2 ^ 7⟩ (by decide) (by decide +kernel)
  obtain ⟨_, _, ⟨f, ef, hf⟩⟩ := C49_naf c hc BASEPOINT_rep P1P
    ⟨2 ^ 52 - 1, 2 ^ 52 - 1, 2 ^ 52 - 1, 2 ^ 52 - 1, 2 ^ 41 - 1⟩ (by decide)
  obtain ⟨g, eg, hg⟩ := window_right c hc 4 (by decide) (by decide)
    ⟨2 ^ 52 - 1, 2 ^ 52 - 1, 2 ^ 52 - 1, 2 ^ 52 - 1, 2 ^ 41 - 1⟩ (by decide) (by decide +kernel)
  obtain ⟨h, eh, hh⟩ := base_mul c hc MINUS_TWO (by decide)
  obtain ⟨i, I, ei, hi, hI⟩ := window_bad c hc 5 (by decide) (by decide) MINUS_TWO (by decide) (by decide +kernel)
  have er : Ristretto.ctEq c h i = .ok false := by
    obtain ⟨t, et, ht⟩ := C58_eq_iff c hh hi
    rw [et, Res.ok_inj, Bool.eq_false_iff]
    exact fun hT => hI (ht.1 hT)
  dsimp only
  rw [ea, Res.ok_bind, eb, Res.ok_bind, ris_same c ha hb (SameClass.refl _), Res.ok_bind, rassert_ok, Res.ok_bind, e215,
    Res.ok_bind, ed, Res.ok_bind, ee, Res.ok_bind, ris_same c hd he (SameClass.refl _), Res.ok_bind, rassert_ok, Res.ok_bind,
    e249, Res.ok_bind, em, Res.ok_bind, eg, Res.ok_bind, ef, Res.ok_bind, ris_same c hg hf (SameClass.refl _), Res.ok_bind,
    rassert_ok, Res.ok_bind, ek, Res.ok_bind, eh, Res.ok_bind, ei, Res.ok_bind, er, Res.ok_bind]
  rfl

/-! ### All tests -/

/-- Every test of the crate that runs by default, in the order of the files. -/
def all : List (Cfg → Res Unit) := [
  Fld.addition_with_modulo, Fld.addition_without_modulo, Fld.addition_mod_0, Fld.add_field_l,
  Fld.subtraction_with_mod, Fld.subtraction_without_mod, Fld.subtract_equals, Fld.subtract_field_l,
  Fld.mul_with_modulo, Fld.mul_without_modulo, Fld.square_test, Fld.square_zero_and_identity, Fld.division,
  Fld.a_pow_b, Fld.legendre_symbol, Fld.mod_sqrt_tonelli_shanks, Fld.inv_sqrt, Fld.non_QRmod_sqrt_tonelli_shanks,
  Fld.from_bytes_conversion, Fld.to_bytes_conversion, Fld.from_u8, Fld.from_u16, Fld.from_u32, Fld.from_u64,
  Fld.from_u128, Fld.from_ristretto255scalar, Fld.into_ristretto255scalar, Fld.two_pow_k, Fld.ord_impl,
  Fld.half_test, Fld.to_montgomery_conv, Fld.from_montgomery_conv, Fld.negation, Fld.negate_one, Fld.negate_zero,
  Fld.l_field_high_bit, Fld.savas_koc_inverse, Fld.evenness, Scl.partial_ord_and_eq, Scl.add_with_modulo,
  Scl.add_without_modulo, Scl.sub_with_modulo, Scl.sub_without_modulo, Scl.square_internal,
  Scl.to_montgomery_conversion, Scl.from_montgomery_conversion, Scl.scalar_mul, Scl.mul_by_identity, Scl.mul_by_zero,
  Scl.montgomery_mul, Scl.square_test, Scl.square_zero_and_identity, Scl.half_test, Scl.mod_pow, Scl.even_scalar,
  Scl.ct_eq, Scl.two_pow_k, Scl.shr_test, Scl.into_bits, Scl.mod_four, Scl.naf, Scl.window_naf,
  Edw.from_projective_to_extended, Edw.from_extended_to_projective, Edw.extended_point_neg,
  Edw.extended_coords_neg_identity, Edw.extended_point_addition, Edw.extended_point_doubling_by_addition,
  Edw.extended_point_doubling, Edw.extended_double_and_add, Edw.extended_point_generation, Edw.projective_point_neg,
  Edw.projective_coords_neg_identity, Edw.projective_point_addition, Edw.projective_point_doubling,
  Edw.projective_double_and_add, Edw.projective_point_generation, Edw.affine_point_ct_eq, Edw.affine_point_eq,
  Edw.point_compression, Edw.point_decompression, Edw.validity_check, Edw.unique_basepoint_test,
  Edw.left_to_right_bin_mul, Edw.naf_bin_mul, Ris.basepoint_compr_decompr, Ris.valid_encoding_test_vectors,
  Ris.decompress_id, Ris.four_torsion_diff, Ris.four_coset_eq_basepoint, Ris.validity_check,
  Ris.elligator_vs_ristretto_sage]

end Tests

namespace Props

open Tests

/-- C124: in both builds every unit test of the crate passes. -/
theorem C124_tests_pass (c : Cfg) (hc : c.Enough) : ∀ t ∈ Tests.all, t c = .ok () := by
  unfold Tests.all
  simp only [List.forall_mem_cons]
  exact ⟨
    Fld.addition_with_modulo_ok c, Fld.addition_without_modulo_ok c, Fld.addition_mod_0_ok c, Fld.add_field_l_ok c,
    Fld.subtraction_with_mod_ok c, Fld.subtraction_without_mod_ok c, Fld.subtract_equals_ok c,
    Fld.subtract_field_l_ok c, Fld.mul_with_modulo_ok c, Fld.mul_without_modulo_ok c, Fld.square_test_ok c,
    Fld.square_zero_and_identity_ok c, Fld.division_ok c hc, Fld.a_pow_b_ok c hc, Fld.legendre_symbol_ok c hc,
    Fld.mod_sqrt_tonelli_shanks_ok c hc, Fld.inv_sqrt_ok c hc, Fld.non_QRmod_sqrt_tonelli_shanks_ok c hc,
    Fld.from_bytes_conversion_ok c, Fld.to_bytes_conversion_ok c, Fld.from_u8_ok c, Fld.from_u16_ok c,
    Fld.from_u32_ok c, Fld.from_u64_ok c, Fld.from_u128_ok c, Fld.from_ristretto255scalar_ok c,
    Fld.into_ristretto255scalar_ok c, Fld.two_pow_k_ok c, Fld.ord_impl_ok c, Fld.half_test_ok c,
    Fld.to_montgomery_conv_ok c, Fld.from_montgomery_conv_ok c, Fld.negation_ok c, Fld.negate_one_ok c,
    Fld.negate_zero_ok c, Fld.l_field_high_bit_ok c, Fld.savas_koc_inverse_ok c hc, Fld.evenness_ok c,
    Scl.partial_ord_and_eq_ok c, Scl.add_with_modulo_ok c, Scl.add_without_modulo_ok c, Scl.sub_with_modulo_ok c,
    Scl.sub_without_modulo_ok c, Scl.square_internal_ok c, Scl.to_montgomery_conversion_ok c,
    Scl.from_montgomery_conversion_ok c, Scl.scalar_mul_ok c, Scl.mul_by_identity_ok c, Scl.mul_by_zero_ok c,
    Scl.montgomery_mul_ok c, Scl.square_test_ok c, Scl.square_zero_and_identity_ok c, Scl.half_test_ok c,
    Scl.mod_pow_ok c hc, Scl.even_scalar_ok c, Scl.ct_eq_ok c, Scl.two_pow_k_ok c, Scl.shr_test_ok c,
    Scl.into_bits_ok c, Scl.mod_four_ok c, Scl.naf_ok c hc, Scl.window_naf_ok c hc,
    Edw.from_projective_to_extended_ok c hc, Edw.from_extended_to_projective_ok c hc, Edw.extended_point_neg_ok c hc,
    Edw.extended_coords_neg_identity_ok c hc, Edw.extended_point_addition_ok c hc,
    Edw.extended_point_doubling_by_addition_ok c hc, Edw.extended_point_doubling_ok c hc,
    Edw.extended_double_and_add_ok c hc, Edw.extended_point_generation_ok c hc, Edw.projective_point_neg_ok c hc,
    Edw.projective_coords_neg_identity_ok c hc, Edw.projective_point_addition_ok c hc,
    Edw.projective_point_doubling_ok c hc, Edw.projective_double_and_add_ok c hc,
    Edw.projective_point_generation_ok c hc, Edw.affine_point_ct_eq_ok c hc, Edw.affine_point_eq_ok c hc,
    Edw.point_compression_ok c hc, Edw.point_decompression_ok c hc, Edw.validity_check_ok c,
    Edw.unique_basepoint_test_ok c hc, Edw.left_to_right_bin_mul_ok c hc, Edw.naf_bin_mul_ok c hc,
    Ris.basepoint_compr_decompr_ok c hc, Ris.valid_encoding_test_vectors_ok c hc, Ris.decompress_id_ok c hc,
    Ris.four_torsion_diff_ok c hc, Ris.four_coset_eq_basepoint_ok c, Ris.validity_check_ok c hc,
    Ris.elligator_vs_ristretto_sage_ok c hc, by simp⟩

/-- There are 92 of them. -/
theorem C124_count : Tests.all.length = 92 := rfl

/-- C124: the two tests that draw random values pass whatever the generator returns. -/
theorem C124_random_tests_pass (c : Cfg) (hc : c.Enough) (b : Bytes32) (rng : ℕ → Bytes64) :
    Ris.four_torsion_diff_random c b = .ok () ∧ Ris.random_point_validity c rng = .ok () :=
  ⟨Ris.four_torsion_diff_random_ok c hc b, randomLoop_ok c hc rng 100⟩

/-- C124: the test of windowed multiplication that is commented out would fail, in both builds. -/
theorem C124_commented_out (c : Cfg) (hc : c.Enough) : Edw.aaaaa c = .panic := Edw.aaaaa_panics c hc

/-- C124: the fourth assertion of that test is the one that fails: the first three hold. -/
theorem C124_commented_out_prefix (c : Cfg) (hc : c.Enough) :
    (∃ S, Ristretto.windowNafMul c (Scalar.fromU32 2) 2 = .ok S ∧ S.Rep (2 • Bpt)) ∧
    (∃ S, Ristretto.windowNafMul c ⟨0, 0, 0, 0, 2 ^ 7⟩ 3 = .ok S ∧ S.Rep (2 ^ 215 • Bpt)) ∧
    (∃ S, Ristretto.windowNafMul c ⟨2 ^ 52 - 1, 2 ^ 52 - 1, 2 ^ 52 - 1, 2 ^ 52 - 1, 2 ^ 41 - 1⟩ 4 = .ok S ∧
      S.Rep ((2 ^ 249 - 1) • Bpt)) ∧
    (∃ S A, Ristretto.windowNafMul c MINUS_TWO 5 = .ok S ∧ S.Rep A ∧ ¬ SameClass ((ell - 2) • Bpt) A) := by
  refine ⟨?_, ?_, ?_, ?_⟩
  · have := window_right c hc 2 (by decide) (by decide) (Scalar.fromU32 2) (by decide) (by decide +kernel)
    rwa [show (Scalar.fromU32 2).val = 2 by decide] at this
  · have := window_right c hc 3 (by decide) (by decide) ⟨0, 0, 0, 0, 2 ^ 7⟩ (by decide) (by decide +kernel)
    rwa [show (⟨0, 0, 0, 0, 2 ^ 7⟩ : Sc).val = 2 ^ 215 by decide] at this
  · have := window_right c hc 4 (by decide) (by decide)
      ⟨2 ^ 52 - 1, 2 ^ 52 - 1, 2 ^ 52 - 1, 2 ^ 52 - 1, 2 ^ 41 - 1⟩ (by decide) (by decide +kernel)
    rwa [show (⟨2 ^ 52 - 1, 2 ^ 52 - 1, 2 ^ 52 - 1, 2 ^ 52 - 1, 2 ^ 41 - 1⟩ : Sc).val = 2 ^ 249 - 1 by decide] at this
  · have := window_bad c hc 5 (by decide) (by decide) MINUS_TWO (by decide) (by decide +kernel)
    rwa [show MINUS_TWO.val = ell - 2 by decide] at this

/-- The budget of the example configurations is enough, and the list is not empty. -/
example : dbg.Enough ∧ rel.Enough ∧ Fld.division ∈ Tests.all := ⟨by decide, by decide, by simp [Tests.all]⟩

end Props
end Zerocaf

import Verif.Model.Ristretto
import Verif.Model.Misc
import Verif.Model.External

/-!
# The unit tests of the repository as programs of the model

Every `#[test]` of the `#[cfg(test)]` modules of `src/backend/u64/field.rs`, `src/backend/u64/scalar.rs`,
`src/edwards.rs` and `src/ristretto.rs` that a plain `cargo test` compiles, function by function, with
`assert!` as `rassert`. The same simplifications apply throughout: a loop `for i in 0..5` (or `0..32`) which asserts
equality of the limbs (or bytes) with the same index is one assertion of equality of the whole arrays; printing
is left out; the strings of `hex::encode` and `hex::decode` are replaced by the bytes they stand for.
The two tests behind `cfg(feature = "rand")` (`ristretto.rs:631-648`, `676-686`) are not here: that feature is not among
the default ones.
-/

set_option linter.unusedVariables false

namespace Zerocaf.Tests

/-- `assert!` of equality, limb by limb or byte by byte. -/
def same {α : Type} [DecidableEq α] (a b : α) : Res Unit := rassert (decide (a = b))

namespace Fld
open Zerocaf.Field (zero one minusOne add sub mul neg square div pow legendre half halfWithoutMod modSqrt invSqrt fromBytes toBytes fromU32 fromU64 fromU128 twoPowK ctEq lt gt toMontgomery fromMontgomery inverse isEven FIELD_L)

/-- `A`, `field.rs:946-946`. -/
def A : FE := ⟨0, 0, 0, 2, 0⟩

/-- `A_SQUARE`, `field.rs:949-955`. -/
def A_SQUARE : FE := ⟨671914833335277, 423018350096769, 2042999080933985, 4503598226741381, 17592186044415⟩

/-- `MINUS_A`, `field.rs:958-964`. -/
def MINUS_A : FE := ⟨671914833335277, 3916664325105025, 1367801, 4503599627370494, 17592186044415⟩

/-- `INV_MONT_A`, `field.rs:967-973`. -/
def INV_MONT_A : FE := ⟨2317332620045262, 1576144597389635, 2025859686448975, 2756776639866422, 1152749206963⟩

/-- `INV_MOD_A`, `field.rs:976-982`. -/
def INV_MOD_A : FE := ⟨1289905446467013, 1277206401232501, 2632844239031511, 61125669693438, 17393375336657⟩

/-- `B`, `field.rs:985-991`. -/
def B : FE := ⟨2766226127823335, 4237835465749098, 4503599626623787, 4503599627370493, 2199023255551⟩

/-- `B_SQUARE`, `field.rs:994-1000`. -/
def B_SQUARE : FE := ⟨3966658334128832, 2102453619223755, 4260110256982373, 4297171677577933, 14791771789536⟩

/-- `MINUS_B`, `field.rs:1003-1009`. -/
def MINUS_B : FE := ⟨2409288332882438, 4182428486726422, 2114509, 2, 15393162788864⟩

/-- `INV_MOD_B`, `field.rs:1012-1018`. -/
def INV_MOD_B : FE := ⟨3843051553829520, 3394345223148522, 3244765182786547, 3746084408926180, 12088264794607⟩

/-- `C`, `field.rs:1021-1021`. -/
def C : FE := ⟨2009874587549, 0, 0, 0, 0⟩

/-- `INV_MOD_C`, `field.rs:1024-1030`. -/
def INV_MOD_C : FE := ⟨623443786605621, 2862023947424023, 16740108872882, 4368084563887202, 16954962737206⟩

/-- `A_PLUS_B`, `field.rs:1033-1039`. -/
def A_PLUS_B : FE := ⟨2766226127823335, 4237835465749098, 4503599626623787, 4503599627370495, 2199023255551⟩

/-- `A_MINUS_B`, `field.rs:1042-1048`. -/
def A_MINUS_B : FE := ⟨2409288332882438, 4182428486726422, 2114509, 4, 15393162788864⟩

/-- `A_MINUS_B_HALF`, `field.rs:1051-1057`. -/
def A_MINUS_B_HALF : FE := ⟨1204644166441219, 4343014057048459, 1057254, 2, 7696581394432⟩

/-- `B_MINUS_A`, `field.rs:1060-1066`. -/
def B_MINUS_A : FE := ⟨2766226127823335, 4237835465749098, 4503599626623787, 4503599627370491, 2199023255551⟩

/-- `A_TIMES_B`, `field.rs:1069-1075`. -/
def A_TIMES_B : FE := ⟨2201910185007838, 1263014888683320, 1977367609994094, 4238575041099341, 2233595300724⟩

/-- `A_TIMES_C`, `field.rs:1078-1078`. -/
def A_TIMES_C : FE := ⟨0, 0, 0, 4019749175098, 0⟩

/-- `A_POW_C`, `field.rs:1081-1087`. -/
def A_POW_C : FE := ⟨2259014482295528, 2217393058433059, 1440043558784742, 1085733660253890, 11974469306680⟩

/-- `A_POW_B`, `field.rs:1090-1096`. -/
def A_POW_B : FE := ⟨2052637523230194, 348932787374078, 3510905667454299, 1125398793242937, 1488986957289⟩

/-- `TWO_POW_197`, `field.rs:1099-1099`. -/
def TWO_POW_197 : FE := ⟨0, 0, 0, 2199023255552, 0⟩

/-- `TWO_POW_252`, `field.rs:1102-1102`. -/
def TWO_POW_252 : FE := ⟨0, 0, 0, 0, 17592186044416⟩

/-- `TWO_POW_104`, `field.rs:1105-1105`. -/
def TWO_POW_104 : FE := ⟨0, 0, 1, 0, 0⟩

/-- `SQRT1_27_NEG`, `field.rs:1108-1114`. -/
def SQRT1_27_NEG : FE := ⟨933733106825591, 3470287880816342, 2891894702196915, 3836949834964192, 14650685232542⟩

/-- `SQRT1_27_POS`, `field.rs:1117-1123`. -/
def SQRT1_27_POS : FE := ⟨4241781353880182, 446376444288682, 1611704926541382, 666649792406303, 2941500811873⟩

/-- `INV_SQRT_27`, `field.rs:1126-1132`. -/
def INV_SQRT_27 : FE := ⟨2352169988867884, 2446401460527425, 986927416739735, 989222758354178, 11393383279360⟩

/-- `MINUS_ONE_BYTES`, `field.rs:937-940`. -/
def MINUS_ONE_BYTES : Bytes32 := #v[236, 211, 245, 92, 26, 99, 18, 88, 214, 156, 247, 162, 222, 249, 222, 20, 0, 0, 0, 0, 0, 0, 0, 0, 0, 0, 0, 0, 0, 0, 0, 16]

/-- `addition_with_modulo`, `field.rs:1137-1142`. -/
def addition_with_modulo (c : Cfg) : Res Unit := do
  let res ← add c minusOne one
  same res zero

/-- `addition_without_modulo`, `field.rs:1145-1150`. -/
def addition_without_modulo (c : Cfg) : Res Unit := do
  let res ← add c A B
  same res A_PLUS_B

/-- `addition_mod_0`, `field.rs:1153-1158`. -/
def addition_mod_0 (c : Cfg) : Res Unit := do
  let res ← add c minusOne one
  same res zero

/-- `add_field_l`, `field.rs:1161-1167`. -/
def add_field_l (c : Cfg) : Res Unit := do
  let a : FE := ⟨2, 0, 0, 0, 0⟩
  let res ← add c a FIELD_L
  same res a

/-- `subtraction_with_mod`, `field.rs:1170-1175`. -/
def subtraction_with_mod (c : Cfg) : Res Unit := do
  let res ← sub c A B
  same res A_MINUS_B

/-- `subtraction_without_mod`, `field.rs:1178-1183`. -/
def subtraction_without_mod (c : Cfg) : Res Unit := do
  let res ← sub c B A
  same res B_MINUS_A

/-- `subtract_equals`, `field.rs:1186-1191`. -/
def subtract_equals (c : Cfg) : Res Unit := do
  let res ← sub c B B
  same res zero

/-- `subtract_field_l`, `field.rs:1194-1200`. -/
def subtract_field_l (c : Cfg) : Res Unit := do
  let a : FE := ⟨2, 0, 0, 0, 0⟩
  let res ← sub c a FIELD_L
  same res a

/-- `mul_with_modulo`, `field.rs:1203-1208`. -/
def mul_with_modulo (c : Cfg) : Res Unit := do
  let res ← mul c A B
  same res A_TIMES_B

/-- `mul_without_modulo`, `field.rs:1211-1216`. -/
def mul_without_modulo (c : Cfg) : Res Unit := do
  let res ← mul c A C
  same res A_TIMES_C

/-- `square`, `field.rs:1219-1229`. -/
def square_test (c : Cfg) : Res Unit := do
  let res ← square c A
  same res A_SQUARE
  let res ← square c B
  same res B_SQUARE

/-- `square_zero_and_identity`, `field.rs:1232-1240`. -/
def square_zero_and_identity (c : Cfg) : Res Unit := do
  let z ← square c zero
  let o ← square c one
  same z zero
  same o one

/-- `division`, `field.rs:1243-1260`. -/
def division (c : Cfg) : Res Unit := do
  let a : FE := ⟨86649, 0, 0, 0, 0⟩
  let b : FE := ⟨86650, 0, 0, 0, 0⟩
  let expected : FE := ⟨939392471225133, 587442007554368, 4497154776428662, 4184267646867733, 2921744366591⟩
  let na ← neg c a
  let res ← div c na b
  rassert (ctEq res expected)

/-- `a_pow_b`, `field.rs:1263-1269`. -/
def a_pow_b (c : Cfg) : Res Unit := do
  let res ← pow c A C
  let res2 ← pow c A B
  rassert (ctEq res A_POW_C)
  rassert (ctEq res2 A_POW_B)

/-- `legendre_symbol`, `field.rs:1272-1279`. -/
def legendre_symbol (c : Cfg) : Res Unit := do
  let _ ← half c minusOne
  let res1 ← legendre c A
  let res2 ← legendre c (fromU32 17)
  rassert (!res1)
  rassert res2

/-- `mod_sqrt_tonelli_shanks`, `field.rs:1282-1296`. -/
def mod_sqrt_tonelli_shanks (c : Cfg) : Res Unit := do
  let inp := fromU32 17
  let r ← modSqrt c inp false
  let sqrt ← unwrap r
  rassert (ctEq sqrt SQRT1_27_NEG)
  let r ← modSqrt c inp true
  let sqrt ← unwrap r
  rassert (ctEq sqrt SQRT1_27_POS)
  let r ← modSqrt c zero false
  let sqrt_zero ← unwrap r
  rassert (ctEq sqrt_zero zero)
  let r ← modSqrt c zero true
  let sqrt_zero ← unwrap r
  rassert (ctEq sqrt_zero zero)

/-- `inv_sqrt`, `field.rs:1299-1303`. -/
def inv_sqrt (c : Cfg) : Res Unit := do
  let (_, res) ← invSqrt c (fromU32 27)
  let nres ← neg c res
  rassert (ctEq nres INV_SQRT_27)

/-- `non_QRmod_sqrt_tonelli_shanks`, `field.rs:1307-1311`. -/
def non_QRmod_sqrt_tonelli_shanks (c : Cfg) : Res Unit := do
  let r ← modSqrt c A false
  rassert r.isNone
  let r ← modSqrt c A true
  rassert r.isNone

/-- `from_bytes_conversion`, `field.rs:1314-1319`. -/
def from_bytes_conversion (c : Cfg) : Res Unit :=
  same (fromBytes MINUS_ONE_BYTES) minusOne

/-- `to_bytes_conversion`, `field.rs:1322-1327`. -/
def to_bytes_conversion (c : Cfg) : Res Unit :=
  same (toBytes minusOne) MINUS_ONE_BYTES

/-- `from_u8`, `field.rs:1330-1337`. -/
def from_u8 (c : Cfg) : Res Unit :=
  same (fromU32 2) ⟨2, 0, 0, 0, 0⟩

/-- `from_u16`, `field.rs:1340-1347`. -/
def from_u16 (c : Cfg) : Res Unit :=
  same (fromU32 32768) ⟨32768, 0, 0, 0, 0⟩

/-- `from_u32`, `field.rs:1350-1357`. -/
def from_u32 (c : Cfg) : Res Unit :=
  same (fromU32 2147483648) ⟨2147483648, 0, 0, 0, 0⟩

/-- `from_u64`, `field.rs:1360-1366`. -/
def from_u64 (c : Cfg) : Res Unit :=
  same (fromU64 18446744073709551615) ⟨4503599627370495, 4095, 0, 0, 0⟩

/-- `from_u128`, `field.rs:1369-1376`. -/
def from_u128 (c : Cfg) : Res Unit :=
  same (fromU128 170141183460469231731687303715884105727) ⟨4503599627370495, 4503599627370495, 8388607, 0, 0⟩

/-- The bytes of the `Ristretto255Scalar` of the next two tests, `field.rs:1362-1366`, `1385-1389`. -/
def R255 : Bytes32 := #v[0x4e, 0x5a, 0xb4, 0x34, 0x5d, 0x47, 0x08, 0x84, 0x59, 0x13, 0xb4, 0x64, 0x1b, 0xc2, 0x7d, 0x52,
  0x52, 0xa5, 0x85, 0x10, 0x1b, 0xcc, 0x42, 0x44, 0xd4, 0x49, 0xf4, 0xa8, 0x79, 0xd9, 0xf2, 0x04]

/-- The same number as a field element. -/
def R255_FE : FE := ⟨2330265455450702, 481909309544512, 146945097235906, 1298816433963441, 5441077225716⟩

/-- `from_ristretto255scalar`, `field.rs:1379-1399`. -/
def from_ristretto255scalar (c : Cfg) : Res Unit := do
  let a ← unwrap (External.fromCanonicalBytes R255)
  same (External.toField a) R255_FE

/-- `into_ristretto255scalar`, `field.rs:1402-1422`. -/
def into_ristretto255scalar (c : Cfg) : Res Unit := do
  let a ← unwrap (External.fromCanonicalBytes R255)
  let res ← External.intoDalek R255_FE
  same a res

/-- `two_pow_k`, `field.rs:1425-1449`. -/
def two_pow_k (c : Cfg) : Res Unit := do
  let r ← twoPowK 0
  same r one
  let r ← twoPowK 252
  same r TWO_POW_252
  let r ← twoPowK 197
  same r TWO_POW_197
  let r ← twoPowK 104
  same r TWO_POW_104

/-- `ord_impl`, `field.rs:1452-1458`. -/
def ord_impl (c : Cfg) : Res Unit := do
  rassert (lt ⟨2, 0, 0, 0, 0⟩ ⟨0, 2, 0, 0, 0⟩)
  rassert (gt ⟨0, 0, 0, 0, 1⟩ ⟨0, 2498436546, 6587652167965486, 0, 0⟩)
  rassert (ctEq ⟨0, 1, 2, 3, 4⟩ ⟨0, 1, 2, 3, 4⟩)

/-- `half`, `field.rs:1461-1474`. -/
def half_test (c : Cfg) : Res Unit := do
  same (halfWithoutMod ⟨0, 1, 0, 0, 0⟩) ⟨2251799813685248, 0, 0, 0, 0⟩
  same (halfWithoutMod A_MINUS_B) A_MINUS_B_HALF

/-- `to_montgomery_conv`, `field.rs:1477-1482`. -/
def to_montgomery_conv (c : Cfg) : Res Unit := do
  let r ← toMontgomery c A
  same r INV_MONT_A

/-- `from_montgomery_conv`, `field.rs:1485-1490`. -/
def from_montgomery_conv (c : Cfg) : Res Unit := do
  let r ← fromMontgomery c INV_MONT_A
  same r A

/-- `negation`, `field.rs:1493-1501`. -/
def negation (c : Cfg) : Res Unit := do
  let minus_a ← neg c A
  let minus_b ← neg c B
  same minus_a MINUS_A
  same minus_b MINUS_B

/-- `negate_one`, `field.rs:1504-1514`. -/
def negate_one (c : Cfg) : Res Unit := do
  let minus_one ← neg c one
  same minus_one minusOne
  let o ← neg c minusOne
  same o one

/-- `negate_zero`, `field.rs:1517-1522`. -/
def negate_zero (c : Cfg) : Res Unit := do
  let r ← neg c zero
  same r zero

/-- `l_field_high_bit`, `field.rs:1525-1529`. -/
def l_field_high_bit (c : Cfg) : Res Unit :=
  rassert (decide ((toBytes FIELD_L)[31].toNat < 1 <<< 7))

/-- `savas_koc_inverse`, `field.rs:1532-1547`. -/
def savas_koc_inverse (c : Cfg) : Res Unit := do
  let res ← inverse c A
  same res INV_MOD_A
  let res ← inverse c B
  same res INV_MOD_B
  let res ← inverse c C
  same res INV_MOD_C

/-- `evenness`, `field.rs:1550-1555`. -/
def evenness (c : Cfg) : Res Unit := do
  rassert (isEven A)
  rassert (!isEven B)

end Fld

namespace Scl
open Zerocaf.Scalar (zero one minusOne add sub mul square squareInternal half montgomeryMul toMontgomery fromMontgomery pow isEven ctEq cmp ge twoPowK shr intoBits mod2PowK computeNAF computeWindowNAF fromU32 fromU64 fromU128)

/-- `A`, `scalar.rs:682-682`. -/
def A : Sc := ⟨0, 0, 0, 2, 0⟩

/-- `B`, `scalar.rs:685-691`. -/
def B : Sc := ⟨2766226127823335, 4237835465749098, 4503599626623787, 4503599627370493, 2199023255551⟩

/-- `AB`, `scalar.rs:694-694`. -/
def AB : Sc := ⟨2867050651854460, 1629308859434048, 1461147, 4, 0⟩

/-- `BA`, `scalar.rs:697-703`. -/
def BA : Sc := ⟨2766226127823335, 4237835465749098, 4503599626623787, 4503599627370491, 2199023255551⟩

/-- `A_POW_B`, `scalar.rs:706-712`. -/
def A_POW_B : Sc := ⟨2191545792217572, 448661815025744, 1377760471467833, 2830870192895755, 435342682203⟩

/-- `A_MONT`, `scalar.rs:715-721`. -/
def A_MONT : Sc := ⟨690508070349896, 1499135165000273, 3323154938341339, 2542801086174134, 182210350076⟩

/-- `X`, `scalar.rs:724-730`. -/
def X : Sc := ⟨4503599627370495, 4503599627370495, 4503599627370495, 4503599627370495, 4398046511103⟩

/-- `Y`, `scalar.rs:733-739`. -/
def Y : Sc := ⟨138340288859536, 461913478537005, 1182880083788836, 1688835920473363, 1743782656037⟩

/-- `Y_SQ`, `scalar.rs:742-748`. -/
def Y_SQ : Sc := ⟨3511508334592158, 913859277470939, 3383393792942685, 3918279098243301, 1168230887094⟩

/-- `Y_HALF`, `scalar.rs:751-757`. -/
def Y_HALF : Sc := ⟨2320969958115016, 230956739268502, 2843239855579666, 3096217773921929, 871891328018⟩

/-- `Y_MONT`, `scalar.rs:760-766`. -/
def Y_MONT : Sc := ⟨2880674519323206, 1234984943133080, 2849728124521957, 4421863362992372, 441429835402⟩

/-- `X_TIMES_Y_MONT`, `scalar.rs:769-775`. -/
def X_TIMES_Y_MONT : Sc := ⟨228255815821095, 3571367814561020, 2885104738833919, 415982367220597, 959709905966⟩

/-- `X_TIMES_Y`, `scalar.rs:778-784`. -/
def X_TIMES_Y : Sc := ⟨3955754814270951, 1675310998682037, 4396625830536378, 1174212537684658, 176498809098⟩

/-- `partial_ord_and_eq`, `scalar.rs:789-798`. -/
def partial_ord_and_eq (c : Cfg) : Res Unit := do
  rassert (isEven Y)
  rassert (!isEven X)
  rassert (cmp A_MONT Y == .lt)
  rassert (cmp Y X == .lt)
  rassert (ge Y Y)
  rassert (ctEq X X)

/-- `add_with_modulo`, `scalar.rs:801-808`. -/
def add_with_modulo (c : Cfg) : Res Unit := do
  let res ← add c AB BA
  same res zero

/-- `add_without_modulo`, `scalar.rs:811-817`. -/
def add_without_modulo (c : Cfg) : Res Unit := do
  let res ← add c BA A
  same res B

/-- `sub_with_modulo`, `scalar.rs:820-825`. -/
def sub_with_modulo (c : Cfg) : Res Unit := do
  let res ← sub c A B
  same res AB

/-- `sub_without_modulo`, `scalar.rs:828-833`. -/
def sub_without_modulo (c : Cfg) : Res Unit := do
  let res ← sub c B A
  same res BA

/-- `square_internal`, `scalar.rs:836-842`. -/
def square_internal (c : Cfg) : Res Unit := do
  let r ← squareInternal c A
  same (r.w0, r.w1, r.w2, r.w3, r.w4) (0, 0, 0, 0, 0)

/-- `to_montgomery_conversion`, `scalar.rs:845-850`. -/
def to_montgomery_conversion (c : Cfg) : Res Unit := do
  let a ← toMontgomery c A
  same a A_MONT

/-- `from_montgomery_conversion`, `scalar.rs:853-858`. -/
def from_montgomery_conversion (c : Cfg) : Res Unit := do
  let y ← fromMontgomery c Y_MONT
  same y Y

/-- `scalar_mul`, `scalar.rs:861-866`. -/
def scalar_mul (c : Cfg) : Res Unit := do
  let res ← mul c X Y
  same res X_TIMES_Y

/-- `mul_by_identity`, `scalar.rs:869-875`. -/
def mul_by_identity (c : Cfg) : Res Unit := do
  let res ← mul c Y one
  same res Y

/-- `mul_by_zero`, `scalar.rs:878-883`. -/
def mul_by_zero (c : Cfg) : Res Unit := do
  let res ← mul c Y zero
  same res zero

/-- `montgomery_mul`, `scalar.rs:886-891`. -/
def montgomery_mul (c : Cfg) : Res Unit := do
  let res ← montgomeryMul c X Y
  same res X_TIMES_Y_MONT

/-- `square`, `scalar.rs:894-900`. -/
def square_test (c : Cfg) : Res Unit := do
  let res ← square c Y
  same res Y_SQ

/-- `square_zero_and_identity`, `scalar.rs:903-911`. -/
def square_zero_and_identity (c : Cfg) : Res Unit := do
  let z ← square c zero
  let o ← square c one
  same z zero
  same o one

/-- `half`, `scalar.rs:914-927`. -/
def half_test (c : Cfg) : Res Unit := do
  let res ← half c Y
  same res Y_HALF
  let h ← half c A
  same ⟨0, 0, 0, 1, 0⟩ h
  let hh ← half c h
  same ⟨0, 0, 2251799813685248, 0, 0⟩ hh

/-- `mod_pow`, `scalar.rs:930-934`. -/
def mod_pow (c : Cfg) : Res Unit := do
  let res ← pow c A B
  rassert (ctEq res A_POW_B)

/-- `even_scalar`, `scalar.rs:937-941`. -/
def even_scalar (c : Cfg) : Res Unit := do
  rassert (isEven Y)
  rassert (!isEven X)
  rassert (isEven zero)

/-- `ct_eq`, `scalar.rs:944-948`. -/
def ct_eq (c : Cfg) : Res Unit := do
  rassert (ctEq A A)
  rassert (!ctEq A B)

/-- `two_pow_k`, `scalar.rs:952-960`. -/
def two_pow_k (c : Cfg) : Res Unit := do
  let r ← twoPowK 0
  rassert (ctEq r one)
  let r ← twoPowK 1
  rassert (ctEq r (fromU32 2))
  let r ← twoPowK 249
  rassert (ctEq r ⟨0, 0, 0, 0, 2199023255552⟩)
  let r ← twoPowK 248
  rassert (ctEq r ⟨0, 0, 0, 0, 1099511627776⟩)

/-- `shr`, `scalar.rs:963-977`. -/
def shr_test (c : Cfg) : Res Unit := do
  rassert (ctEq (shr A 1) ⟨0, 0, 0, 1, 0⟩)
  rassert (ctEq (shr ⟨0, 0, 0, 1, 0⟩ 1) ⟨0, 0, 2251799813685248, 0, 0⟩)
  rassert (ctEq (shr one 1) ⟨0, 0, 0, 0, 0⟩)
  rassert (ctEq (shr zero 1) zero)
  rassert (ctEq (shr minusOne 250) zero)
  let t ← twoPowK 249
  rassert (ctEq (shr t 248) (fromU32 2))
  rassert (ctEq (shr t 249) one)

/-- The literal `minus_one` of `into_bits`, `scalar.rs:998`. -/
def MINUS_ONE_BITS : List UInt8 :=
  [0, 1, 0, 0, 0, 1, 1, 0, 0, 0, 0, 1, 0, 0, 1, 1, 1, 1, 1, 1, 1, 0, 1, 0, 1, 0, 1, 0, 1, 1, 1, 0, 1, 1, 1, 1, 0, 1, 1, 0, 
    1, 1, 0, 0, 0, 0, 0, 0, 0, 0, 1, 0, 1, 1, 0, 1, 0, 1, 0, 1, 0, 1, 1, 0, 1, 1, 0, 0, 1, 0, 0, 1, 1, 0, 1, 0, 1, 0, 1, 1, 
    1, 1, 1, 1, 0, 1, 0, 0, 0, 1, 0, 0, 0, 0, 0, 1, 1, 0, 1, 1, 0, 0, 1, 0, 1, 1, 1, 0, 0, 0, 1, 1, 0, 1, 1, 0, 0, 1, 1, 1, 
    0, 1, 0, 1, 0, 0, 0, 0, 0, 0, 0, 0, 0, 0, 0, 0, 0, 0, 0, 0, 0, 0, 0, 0, 0, 0, 0, 0, 0, 0, 0, 0, 0, 0, 0, 0, 0, 0, 0, 0, 
    0, 0, 0, 0, 0, 0, 0, 0, 0, 0, 0, 0, 0, 0, 0, 0, 0, 0, 0, 0, 0, 0, 0, 0, 0, 0, 0, 0, 0, 0, 0, 0, 0, 0, 0, 0, 0, 0, 0, 0, 
    0, 0, 0, 0, 0, 0, 0, 0, 0, 0, 0, 0, 0, 0, 0, 0, 0, 0, 0, 0, 0, 0, 0, 0, 0, 0, 0, 0, 0, 0, 0, 0, 0, 0, 0, 0, 0, 0, 0, 0, 
    0, 0, 0, 0, 0, 0, 0, 0, 0, 1, 0, 0, 0, 0, 0, 0]

/-- `into_bits`, `scalar.rs:980-1010`. -/
def into_bits (c : Cfg) : Res Unit := do
  let zeroBits : Vector UInt8 256 := Vector.replicate 256 0
  let oneBits := zeroBits.set 0 1
  let nineBits := oneBits.set 3 1
  let two_pow_249 := zeroBits.set 249 1
  same (intoBits zero).toList zeroBits.toList
  same (intoBits one).toList oneBits.toList
  same (intoBits (fromU32 9)).toList nineBits.toList
  let t ← twoPowK 249
  same (intoBits t).toList two_pow_249.toList
  same (intoBits minusOne).toList MINUS_ONE_BITS

/-- `mod_four`, `scalar.rs:1013-1021`. -/
def mod_four (c : Cfg) : Res Unit := do
  let r ← mod2PowK c (fromU32 4) 2
  same r 0
  let r ← mod2PowK c (fromU32 3) 2
  same r 3
  let r ← mod2PowK c (fromU32 557) 2
  same r 1
  let r ← mod2PowK c (fromU128 42535295865117307932887201356513780707) 2
  same r 3

/-- `naf`, `scalar.rs:1024-1027`. -/
def naf (c : Cfg) : Res Unit := do
  let r ← computeNAF c (fromU32 7)
  same (r.toList.take 4) [-1, 0, 0, 1]

/-- `window_naf`, `scalar.rs:1030-1052`. -/
def window_naf (c : Cfg) : Res Unit := do
  let scalar := fromU64 1122334455
  let r ← computeWindowNAF c scalar 2
  same [-1, 0, 0, -1, 0, 0, 0, 0, -1, 0, 0, -1, 0, 0, 0, -1, 0, -1, 0, 1, 0, -1, 0, 0, -1, 0, 1, 0, 0, 0, 1] (r.toList.take 31)
  let r ← computeWindowNAF c scalar 3
  same [-1, 0, 0, -1, 0, 0, 0, 0, -1, 0, 0, -1, 0, 0, 0, 3, 0, 0, 1, 0, 0, -1, 0, 0, 3, 0, 0, 0, 0, 0, 1] (r.toList.take 31)
  let r ← computeWindowNAF c scalar 4
  same [7, 0, 0, 0, -1, 0, 0, 0, 7, 0, 0, 0, 7, 0, 0, 0, 5, 0, 0, 0, 0, 7, 0, 0, 0, 1, 0, 0, 0, 0, 1] (r.toList.take 31)
  let r ← computeWindowNAF c scalar 5
  same [-9, 0, 0, 0, 0, 0, 0, 0, -9, 0, 0, 0, 0, 0, 0, 11, 0, 0, 0, 0, 0, -9, 0, 0, 0, 0, -15, 0, 0, 0, 0, 1] (r.toList.take 32)
  let r ← computeWindowNAF c scalar 6
  same [-9, 0, 0, 0, 0, 0, 0, 0, -9, 0, 0, 0, 0, 0, 0, 11, 0, 0, 0, 0, 0, 23, 0, 0, 0, 0, 0, 0, 0, 0, 1] (r.toList.take 31)

end Scl

namespace Edw

/-- `P1_AFFINE`, `edwards.rs:1145-1154`. -/
def P1_AFFINE : AffPoint :=
  ⟨⟨13, 0, 0, 0, 0⟩,
    ⟨606320128494542, 1597163540666577, 1835599237877421, 1667478411389512, 3232679738299⟩⟩

/-- `P2_AFFINE`, `edwards.rs:1156-1165`. -/
def P2_AFFINE : AffPoint :=
  ⟨⟨67, 0, 0, 0, 0⟩,
    ⟨2369245568431362, 2665603790611352, 3317390952748653, 1908583331312524, 8011773354506⟩⟩

/-- `P1_EXTENDED`, `edwards.rs:1167-1184`. -/
def P1_EXTENDED : EdPoint :=
  ⟨⟨13, 0, 0, 0, 0⟩,
    ⟨606320128494542, 1597163540666577, 1835599237877421, 1667478411389512, 3232679738299⟩,
    ⟨1, 0, 0, 0, 0⟩,
    ⟨2034732376387996, 3922598123714460, 1344791952818393, 3662820838581677, 6840464509059⟩⟩

/-- `P2_EXTENDED`, `edwards.rs:1186-1203`. -/
def P2_EXTENDED : EdPoint :=
  ⟨⟨67, 0, 0, 0, 0⟩,
    ⟨2369245568431362, 2665603790611352, 3317390952748653, 1908583331312524, 8011773354506⟩,
    ⟨1, 0, 0, 0, 0⟩,
    ⟨3474019263728064, 2548729061993416, 1588812051971430, 1774293631565269, 9023233419450⟩⟩

/-- `P4_EXTENDED`, `edwards.rs:1206-1235`. -/
def P4_EXTENDED : EdPoint :=
  ⟨⟨28731243678497, 3605893500953713, 4417389530006141, 299092414682919, 4656166963268⟩,
    ⟨1108585916087857, 594338741746768, 1302451816332899, 2952667069736952, 9685400790709⟩,
    ⟨3678126740275983, 2102367182843193, 1215780564383894, 577880234309233, 3967832577760⟩,
    ⟨1187490310723625, 475595246262913, 1092363334429875, 285623496107549, 15708045001361⟩⟩

/-- `P3_EXTENDED`, `edwards.rs:1238-1267`. -/
def P3_EXTENDED : EdPoint :=
  ⟨⟨1476979596852032, 1246004597497903, 209071396735379, 2301211094775178, 8305779568088⟩,
    ⟨2443441861872082, 2091934391169607, 4475713698486302, 2663476425643860, 11068724258563⟩,
    ⟨3359568035147073, 1010422717320416, 4098443973666364, 1207164847672527, 9657319892454⟩,
    ⟨4430735055822517, 4109982164990701, 4066725032805467, 1974812232939042, 2107656041478⟩⟩

/-- `P1_PROJECTIVE`, `edwards.rs:1269-1279`. -/
def P1_PROJECTIVE : ProjPoint :=
  ⟨⟨13, 0, 0, 0, 0⟩,
    ⟨606320128494542, 1597163540666577, 1835599237877421, 1667478411389512, 3232679738299⟩,
    ⟨1, 0, 0, 0, 0⟩⟩

/-- `P2_PROJECTIVE`, `edwards.rs:1281-1291`. -/
def P2_PROJECTIVE : ProjPoint :=
  ⟨⟨67, 0, 0, 0, 0⟩,
    ⟨2369245568431362, 2665603790611352, 3317390952748653, 1908583331312524, 8011773354506⟩,
    ⟨1, 0, 0, 0, 0⟩⟩

/-- `P4_PROJECTIVE`, `edwards.rs:1294-1316`. -/
def P4_PROJECTIVE : ProjPoint :=
  ⟨⟨28731243678497, 3605893500953713, 4417389530006141, 299092414682919, 4656166963268⟩,
    ⟨1108585916087857, 594338741746768, 1302451816332899, 2952667069736952, 9685400790709⟩,
    ⟨3678126740275983, 2102367182843193, 1215780564383894, 577880234309233, 3967832577760⟩⟩

/-- `P3_PROJECTIVE`, `edwards.rs:1319-1341`. -/
def P3_PROJECTIVE : ProjPoint :=
  ⟨⟨1476979596852032, 1246004597497903, 209071396735379, 2301211094775178, 8305779568088⟩,
    ⟨2443441861872082, 2091934391169607, 4475713698486302, 2663476425643860, 11068724258563⟩,
    ⟨3359568035147073, 1010422717320416, 4098443973666364, 1207164847672527, 9657319892454⟩⟩

/-- `P1_COMPRESSED`, `edwards.rs:1344-1347`. -/
def P1_COMPRESSED : Bytes32 := #v[206, 11, 225, 231, 113, 39, 18, 141, 213, 215, 201, 201, 90, 173, 14, 134, 192, 119,
  133, 134, 164, 26, 38, 1, 201, 94, 187, 59, 186, 170, 240, 2]

/-- `P2_COMPRESSED`, `edwards.rs:1350-1353`. -/
def P2_COMPRESSED : Bytes32 := #v[2, 245, 125, 248, 208, 106, 136, 57, 210, 240, 163, 133, 151, 109, 214, 81, 69, 38,
  201, 203, 56, 203, 247, 138, 125, 108, 10, 162, 231, 98, 73, 7]

/-- The bytes of `fail_compr`, `edwards.rs:1571-1574`. -/
def FAIL_BYTES : Bytes32 := #v[250, 144, 188, 47, 13, 101, 118, 114, 201, 185, 169, 115, 255, 111, 40, 25, 69, 105,
  170, 255, 113, 65, 120, 126, 170, 192, 48, 109, 112, 20, 221, 149]

/-- `from_projective_to_extended`, `edwards.rs:1358-1360`. -/
def from_projective_to_extended (c : Cfg) : Res Unit := do
  let p ← Ed.ofProj c P1_PROJECTIVE
  let r ← Ed.ctEq c p P1_EXTENDED
  rassert r

/-- `from_extended_to_projective`, `edwards.rs:1363-1365`. -/
def from_extended_to_projective (c : Cfg) : Res Unit := do
  let r ← Proj.ctEq c P1_PROJECTIVE (Proj.ofEd P1_EXTENDED)
  rassert r

/-- `extended_point_neg`, `edwards.rs:1368-1379`. -/
def extended_point_neg (c : Cfg) : Res Unit := do
  let inv_a : EdPoint := ⟨Field.zero, Field.one, Field.one, Field.zero⟩
  let res ← Ed.neg c Ed.identity
  let r ← Ed.ctEq c res inv_a
  rassert r

/-- `extended_coords_neg_identity`, `edwards.rs:1382-1386`. -/
def extended_coords_neg_identity (c : Cfg) : Res Unit := do
  let res ← Ed.neg c Ed.identity
  let r ← Ed.ctEq c res Ed.identity
  rassert r

/-- `extended_point_addition`, `edwards.rs:1389-1392`. -/
def extended_point_addition (c : Cfg) : Res Unit := do
  let res ← Ed.add c P1_EXTENDED P2_EXTENDED
  let r ← Ed.ctEq c res P4_EXTENDED
  rassert r

/-- `extended_point_doubling_by_addition`, `edwards.rs:1395-1398`. -/
def extended_point_doubling_by_addition (c : Cfg) : Res Unit := do
  let res ← Ed.add c P1_EXTENDED P1_EXTENDED
  let r ← Ed.ctEq c res P3_EXTENDED
  rassert r

/-- `extended_point_doubling`, `edwards.rs:1401-1408`. -/
def extended_point_doubling (c : Cfg) : Res Unit := do
  let res ← Ed.double c P1_EXTENDED
  let r ← Ed.ctEq c res P3_EXTENDED
  rassert r
  let d ← Ed.double c Ed.identity
  let r ← Ed.ctEq c Ed.identity d
  rassert r

/-- `extended_double_and_add`, `edwards.rs:1411-1418`. -/
def extended_double_and_add (c : Cfg) : Res Unit := do
  let d1 ← Ed.double c P1_EXTENDED
  let d2 ← Ed.double c d1
  let expect ← Ed.double c d2
  let res ← Ed.mul c P1_EXTENDED (Scalar.fromU32 8)
  let r ← Ed.ctEq c expect res
  rassert r

/-- `extended_point_generation`, `edwards.rs:1421-1448`. -/
def extended_point_generation (c : Cfg) : Res Unit := do
  let o ← Ed.newFromY c P2_EXTENDED.Y false
  let p2 ← unwrap o
  let r ← Ed.ctEq c p2 P2_EXTENDED
  rassert r
  let o ← Ed.newFromY c P1_EXTENDED.Y false
  let p1 ← unwrap o
  let r ← Ed.ctEq c p1 P1_EXTENDED
  rassert r
  let p_fail ← Ed.newFromY c (Field.fromU32 15) false
  rassert p_fail.isNone

/-- `projective_point_neg`, `edwards.rs:1451-1461`. -/
def projective_point_neg (c : Cfg) : Res Unit := do
  let inv_a : ProjPoint := ⟨Field.zero, Field.one, Field.one⟩
  let res ← Proj.neg c Proj.identity
  let r ← Proj.ctEq c res inv_a
  rassert r

/-- `projective_coords_neg_identity`, `edwards.rs:1464-1468`. -/
def projective_coords_neg_identity (c : Cfg) : Res Unit := do
  let res ← Proj.neg c Proj.identity
  let r ← Proj.ctEq c res Proj.identity
  rassert r

/-- `projective_point_addition`, `edwards.rs:1471-1475`. -/
def projective_point_addition (c : Cfg) : Res Unit := do
  let res ← Proj.add c P1_PROJECTIVE P2_PROJECTIVE
  let r ← Proj.ctEq c res P4_PROJECTIVE
  rassert r

/-- `projective_point_doubling`, `edwards.rs:1478-1482`. -/
def projective_point_doubling (c : Cfg) : Res Unit := do
  let res ← Proj.double c P1_PROJECTIVE
  let r ← Proj.ctEq c res P3_PROJECTIVE
  rassert r

/-- `projective_double_and_add`, `edwards.rs:1485-1492`. -/
def projective_double_and_add (c : Cfg) : Res Unit := do
  let d1 ← Proj.double c P1_PROJECTIVE
  let d2 ← Proj.double c d1
  let expect ← Proj.double c d2
  let res ← Proj.mul c P1_PROJECTIVE (Scalar.fromU32 8)
  let r ← Proj.ctEq c expect res
  rassert r

/-- `projective_point_generation`, `edwards.rs:1495-1522`. -/
def projective_point_generation (c : Cfg) : Res Unit := do
  let o ← Proj.newFromY c P2_EXTENDED.Y false
  let p2 ← unwrap o
  let r ← Proj.ctEq c p2 P2_PROJECTIVE
  rassert r
  let o ← Proj.newFromY c P1_EXTENDED.Y false
  let p1 ← unwrap o
  let r ← Proj.ctEq c p1 P1_PROJECTIVE
  rassert r
  let p_fail ← Proj.newFromY c (Field.fromU32 15) false
  rassert p_fail.isNone

/-- `affine_point_ct_eq`, `edwards.rs:1525-1539`. -/
def affine_point_ct_eq (c : Cfg) : Res Unit := do
  rassert (!Aff.ctEq P1_AFFINE P2_AFFINE)
  rassert (Aff.ctEq P1_AFFINE P1_AFFINE)
  let a ← Aff.ofProj c P3_PROJECTIVE
  let d ← Proj.double c P1_PROJECTIVE
  let b ← Aff.ofProj c d
  rassert (Aff.ctEq a b)

/-- `affine_point_eq`, `edwards.rs:1542-1547`. -/
def affine_point_eq (c : Cfg) : Res Unit := do
  rassert (Aff.ctEq P1_AFFINE P1_AFFINE)
  rassert (!Aff.ctEq P1_AFFINE P2_AFFINE)
  let a ← Aff.ofProj c P3_PROJECTIVE
  let d ← Proj.double c P1_PROJECTIVE
  let b ← Aff.ofProj c d
  rassert (Aff.ctEq a b)

/-- `point_compression`, `edwards.rs:1550-1562`. -/
def point_compression (c : Cfg) : Res Unit := do
  let compr ← Misc.edFromSlice P1_COMPRESSED.toList
  let r ← Ed.compress c P1_EXTENDED
  rassert (Misc.compressedCtEq compr r)
  let compr2 ← Misc.edFromSlice P2_COMPRESSED.toList
  let r ← Ed.compress c P2_EXTENDED
  rassert (Misc.compressedCtEq compr2 r)

/-- `point_decompression`, `edwards.rs:1565-1577`. -/
def point_decompression (c : Cfg) : Res Unit := do
  let o ← Ed.decompress c P1_COMPRESSED
  let p1 ← unwrap o
  let r ← Ed.ctEq c p1 P1_EXTENDED
  rassert r
  let o ← Ed.decompress c P2_COMPRESSED
  let p2 ← unwrap o
  let r ← Ed.ctEq c p2 P2_EXTENDED
  rassert r
  let fail_compr ← Misc.edFromSlice FAIL_BYTES.toList
  let o ← Ed.decompress c fail_compr
  rassert o.isNone

/-- `validity_check`, `edwards.rs:1580-1591`. -/
def validity_check (c : Cfg) : Res Unit := do
  let r ← Aff.isValid c Aff.identity
  rassert r
  let r ← Aff.isValid c P1_AFFINE
  rassert r
  let r ← Aff.isValid c P2_AFFINE
  rassert r
  let r ← Ed.isValid c Ed.identity
  rassert r
  let r ← Ed.isValid c P1_EXTENDED
  rassert r
  let r ← Proj.isValid c P2_PROJECTIVE
  rassert r
  let r ← Ed.isValid c P4_EXTENDED
  rassert r

/-- `unique_basepoint_test`, `edwards.rs:1594-1600`. -/
def unique_basepoint_test (c : Cfg) : Res Unit := do
  let y ← Field.div c (Field.fromU32 3) (Field.fromU32 5)
  let o ← Ed.newFromY c y false
  let basep ← unwrap o
  let r ← Ed.isValid c basep
  rassert r
  let lp ← Ed.mul c basep Scalar.L
  let r ← Ed.ctEq c lp Ed.identity
  rassert r

/-- `left_to_right_bin_mul`, `edwards.rs:1603-1605`. -/
def left_to_right_bin_mul (c : Cfg) : Res Unit := do
  let k ← Scalar.twoPowK 215
  let a ← Ed.mul c P1_EXTENDED k
  let b ← ltrBinMul Ed.ops c P1_EXTENDED k
  let r ← Ed.ctEq c a b
  rassert r

/-- `naf_bin_mul`, `edwards.rs:1608-1617`. -/
def naf_bin_mul (c : Cfg) : Res Unit := do
  let scalar ← Scalar.twoPowK 7
  let a ← doubleAndAdd Ed.ops c P1_EXTENDED scalar
  let b ← binaryNafMul Ed.ops c P1_EXTENDED scalar
  let r ← Ed.ctEq c a b
  rassert r
  let scalar ← Scalar.twoPowK 215
  let a ← doubleAndAdd Ed.ops c P1_EXTENDED scalar
  let b ← binaryNafMul Ed.ops c P1_EXTENDED scalar
  let r ← Ed.ctEq c a b
  rassert r
  let t ← Scalar.twoPowK 249
  let scalar ← Scalar.sub c t Scalar.one
  let a ← binaryNafMul Ed.ops c P1_EXTENDED scalar
  let b ← doubleAndAdd Ed.ops c P1_EXTENDED scalar
  let r ← Ed.ctEq c a b
  rassert r
  let a ← Ed.mul c P1_EXTENDED Scalar.minusOne
  let b ← binaryNafMul Ed.ops c P1_EXTENDED Scalar.minusOne
  let r ← Ed.ctEq c a b
  rassert r

/-- `aaaaa`, the test of `window_naf_mul` that is commented out, `edwards.rs:1621-1636`. -/
def aaaaa (c : Cfg) : Res Unit := do
  let scalar := Scalar.fromU32 2
  let a ← doubleAndAdd Ristretto.ops c Ed.BASEPOINT scalar
  let b ← Ristretto.windowNafMul c scalar 2
  let r ← Ristretto.ctEq c a b
  rassert r
  let scalar ← Scalar.twoPowK 215
  let a ← doubleAndAdd Ristretto.ops c Ed.BASEPOINT scalar
  let b ← Ristretto.windowNafMul c scalar 3
  let r ← Ristretto.ctEq c a b
  rassert r
  let t ← Scalar.twoPowK 249
  let scalar ← Scalar.sub c t Scalar.one
  let a ← Ristretto.windowNafMul c scalar 4
  let b ← binaryNafMul Ristretto.ops c Ed.BASEPOINT scalar
  let r ← Ristretto.ctEq c a b
  rassert r
  let scalar ← Scalar.sub c Scalar.minusOne Scalar.one
  let a ← doubleAndAdd Ristretto.ops c Ed.BASEPOINT scalar
  let b ← Ristretto.windowNafMul c scalar 5
  let r ← Ristretto.ctEq c a b
  rassert r

end Edw

namespace Ris

/-- `basepoint_compr_decompr`, `ristretto.rs:534-539`. -/
def basepoint_compr_decompr (c : Cfg) : Res Unit := do
  let b ← Ristretto.compress c Ed.BASEPOINT
  let o ← Ristretto.decompress c b
  let p ← unwrap o
  let r ← Ristretto.ctEq c p Ed.BASEPOINT
  rassert r

/-- `encodings_of_small_multiples`, `ristretto.rs:547-566`. -/
def ENCODINGS : List Bytes32 := [
  #v[0, 0, 0, 0, 0, 0, 0, 0, 0, 0, 0, 0, 0, 0, 0, 0, 0, 0, 0, 0, 0, 0, 0, 0, 0, 0, 0, 0, 0, 0, 0, 0],
  #v[2, 0, 0, 0, 0, 0, 0, 0, 0, 0, 0, 0, 0, 0, 0, 0, 0, 0, 0, 0, 0, 0, 0, 0, 0, 0, 0, 0, 0, 0, 0, 0],
  #v[171, 228, 234, 152, 234, 174, 218, 90, 156, 99, 135, 156, 179, 196, 217, 180, 160, 30, 211, 26, 195, 131, 172, 239, 215, 237, 73, 134, 30, 26, 128, 2],
  #v[16, 100, 254, 53, 177, 101, 37, 249, 15, 29, 47, 125, 61, 196, 72, 186, 49, 161, 24, 241, 54, 197, 62, 237, 136, 194, 233, 81, 241, 131, 41, 7],
  #v[168, 38, 207, 102, 70, 29, 234, 33, 229, 17, 135, 221, 221, 135, 83, 41, 155, 114, 106, 125, 66, 23, 203, 117, 117, 138, 239, 191, 90, 45, 79, 1],
  #v[77, 46, 7, 5, 169, 180, 125, 18, 47, 152, 189, 116, 128, 141, 56, 108, 241, 105, 27, 197, 64, 122, 247, 3, 221, 12, 72, 8, 3, 139, 127, 7],
  #v[243, 163, 89, 47, 222, 95, 160, 90, 136, 27, 128, 180, 231, 50, 179, 124, 50, 199, 246, 132, 165, 190, 51, 205, 184, 183, 189, 175, 83, 219, 111, 4],
  #v[81, 98, 108, 121, 96, 218, 99, 1, 14, 252, 94, 6, 78, 98, 150, 47, 21, 143, 89, 146, 137, 20, 252, 16, 130, 87, 236, 38, 83, 116, 94, 1],
  #v[213, 248, 20, 76, 27, 4, 149, 66, 145, 120, 91, 229, 120, 99, 58, 121, 19, 23, 82, 232, 42, 251, 153, 11, 212, 162, 91, 65, 203, 212, 144, 1],
  #v[19, 114, 237, 129, 173, 213, 70, 51, 151, 7, 70, 205, 75, 56, 206, 184, 163, 229, 56, 185, 22, 40, 138, 195, 215, 192, 223, 189, 84, 164, 43, 6],
  #v[168, 61, 122, 38, 42, 128, 146, 103, 36, 160, 190, 183, 90, 95, 38, 233, 166, 34, 32, 94, 106, 100, 115, 14, 20, 206, 100, 196, 178, 172, 247, 4],
  #v[166, 178, 113, 42, 110, 88, 106, 181, 82, 247, 188, 244, 56, 22, 131, 4, 184, 184, 163, 243, 178, 133, 42, 6, 174, 24, 62, 99, 3, 64, 101, 3],
  #v[120, 118, 38, 107, 147, 155, 136, 156, 29, 168, 39, 167, 109, 165, 194, 32, 235, 31, 249, 52, 71, 45, 53, 222, 96, 201, 228, 195, 82, 143, 204, 6],
  #v[17, 160, 247, 90, 179, 81, 87, 43, 87, 44, 56, 191, 7, 59, 7, 106, 169, 100, 205, 255, 112, 213, 58, 215, 88, 129, 116, 218, 226, 114, 147, 6],
  #v[100, 242, 251, 128, 180, 95, 191, 115, 121, 62, 158, 142, 80, 159, 152, 132, 142, 205, 180, 82, 201, 140, 131, 197, 92, 92, 49, 251, 35, 61, 153, 7],
  #v[29, 229, 175, 190, 159, 210, 121, 241, 101, 19, 6, 216, 172, 15, 104, 240, 203, 38, 137, 96, 156, 207, 232, 219, 22, 54, 249, 72, 26, 51, 226, 5]]

/-- The loop of `valid_encoding_test_vectors`, over the entries of the table. -/
def encodeLoop (c : Cfg) : List Bytes32 → EdPoint → Res Unit
  | [], _ => .ok ()
  | e :: es, P => do
    let b ← Ristretto.compress c P
    same b e
    let P ← Ristretto.add c P Ed.BASEPOINT
    encodeLoop c es P

/-- `valid_encoding_test_vectors`, `ristretto.rs:542-579`. -/
def valid_encoding_test_vectors (c : Cfg) : Res Unit :=
  encodeLoop c ENCODINGS Ristretto.identity

/-- `decompress_id`, `ristretto.rs:582-594`. -/
def decompress_id (c : Cfg) : Res Unit := do
  let o ← Ristretto.decompress c Ristretto.compressedIdentity
  let id ← unwrap o
  let (p0, p1, p2, p3) ← Ed.coset4 c id
  let b0 ← Ed.compress c p0
  let b1 ← Ed.compress c p1
  let b2 ← Ed.compress c p2
  let b3 ← Ed.compress c p3
  rassert ([b0, b1, b2, b3].any fun b => Misc.compressedCtEq b Ed.compressedIdentity)

/-- `four_torsion_diff`, `ristretto.rs:597-612`. -/
def four_torsion_diff (c : Cfg) : Res Unit := do
  let b ← Ristretto.compress c Ed.BASEPOINT
  let o ← Ristretto.decompress c b
  let p ← unwrap o
  let point_order_4 ← Ed.sub c Ed.BASEPOINT p
  let verif ← mulByPow2 Ed.ops c point_order_4 2
  let e ← Ed.compress c verif
  rassert (Misc.compressedCtEq e Ed.compressedIdentity)

/-- `four_coset_eq_basepoint`, `ristretto.rs:633-640`. -/
def four_coset_eq_basepoint (c : Cfg) : Res Unit := do
  let (p0, p1, p2, p3) ← Ristretto.coset4 c Ed.BASEPOINT
  let r ← Ristretto.ctEq c p0 Ed.BASEPOINT
  rassert r
  let r ← Ristretto.ctEq c p1 Ed.BASEPOINT
  rassert r
  let r ← Ristretto.ctEq c p2 Ed.BASEPOINT
  rassert r
  let r ← Ristretto.ctEq c p3 Ed.BASEPOINT
  rassert r

/-- The bytes of `y_coord_bytes_8L`, `ristretto.rs:656-659`. -/
def Y_8L : Bytes32 := #v[177, 118, 250, 81, 30, 181, 58, 122, 224, 214, 112, 52, 50, 60, 95, 199, 213, 167,
  143, 108, 154, 218, 242, 27, 175, 111, 152, 152, 213, 211, 157, 15]

/-- The loop of `validity_check`. -/
def validLoop (c : Cfg) : Nat → EdPoint → Res Unit
  | 0, _ => .ok ()
  | n + 1, P => do
    let r ← Ristretto.isValid c P
    rassert r
    let P ← Ristretto.add c P Ed.BASEPOINT
    validLoop c n P

/-- `validity_check`, `ristretto.rs:643-664`. -/
def validity_check (c : Cfg) : Res Unit := do
  let r ← Ristretto.isValid c Ed.BASEPOINT
  rassert r
  validLoop c 16 Ristretto.identity
  let o ← Ed.newFromY c (Field.fromBytes Y_8L) false
  let point_8L ← unwrap o
  let r ← Ed.isValid c point_8L
  rassert r
  let r ← Ristretto.isValid c point_8L
  rassert (!r)

/-- `four_torsion_diff_random`, `ristretto.rs:614-631`. The argument is what the generator wrote. -/
def four_torsion_diff_random (c : Cfg) (b : Bytes32) : Res Unit := do
  let k ← Scalar.random b
  let P ← Ristretto.mul c Ed.BASEPOINT k
  let (p0, p1, p2, p3) ← Ristretto.coset4 c P
  let r ← Ristretto.ctEq c P p0
  rassert r
  let r ← Ristretto.ctEq c P p1
  rassert r
  let r ← Ristretto.ctEq c P p2
  rassert r
  let r ← Ristretto.ctEq c P p3
  rassert r
  let e ← Ristretto.compress c P
  let o ← Ristretto.decompress c e
  let Q ← unwrap o
  let nQ ← Ristretto.neg c Q
  let point_order_4 ← Ristretto.add c P nQ
  let v ← mulByPow2 Ristretto.ops c point_order_4 2
  let r ← Ristretto.ctEq c v Ristretto.identity
  rassert r

/-- The loop of `random_point_validity`. The argument is what the generator writes in each round. -/
def randomLoop (c : Cfg) (rng : Nat → Bytes64) : Nat → Res Unit
  | 0 => .ok ()
  | n + 1 => do
    let P ← Ristretto.newRandom c (rng n)
    let r ← Ed.isValid c P
    rassert r
    let e ← Ristretto.compress c P
    let _ ← Ristretto.decompress c e
    randomLoop c rng n

/-- `random_point_validity`, `ristretto.rs:666-676`. Rounds count down. -/
def random_point_validity (c : Cfg) (rng : Nat → Bytes64) : Res Unit := randomLoop c rng 100

/-- `expected_point` of `elligator_vs_ristretto_sage`, `ristretto.rs:683-706`. -/
def EXPECTED : EdPoint :=
  ⟨⟨520984263488427, 2866053035698784, 356812350072736, 1177086814167286, 17585355348321⟩,
    ⟨2224110940152212, 767723869121786, 2519083920383090, 3478258567033985, 6072297619626⟩,
    ⟨1, 0, 0, 0, 0⟩,
    ⟨3761248848988017, 3474827148739807, 3137090891116602, 1521420215868592, 8052069914602⟩⟩

/-- The bytes of `elligator_vs_ristretto_sage`. -/
def ELLIGATOR_BYTES : Bytes32 := #v[46, 45, 124, 111, 136, 124, 129, 193, 89, 63, 50, 226, 250, 49, 167, 182, 93, 79, 187, 243, 143, 138, 179, 4, 94, 173, 34, 252, 69, 116, 50, 25]

/-- `elligator_vs_ristretto_sage`, `ristretto.rs:679-720`. -/
def elligator_vs_ristretto_sage (c : Cfg) : Res Unit := do
  let r ← Ristretto.isValid c EXPECTED
  rassert r
  let point_from_ellig ← Ristretto.elligator c (Field.fromBytes ELLIGATOR_BYTES)
  let r ← Ed.isValid c point_from_ellig
  rassert r
  let r ← Ristretto.ctEq c point_from_ellig EXPECTED
  rassert r
  let a ← Ristretto.compress c point_from_ellig
  let b ← Ristretto.compress c EXPECTED
  rassert (Misc.compressedCtEq a b)

end Ris

end Zerocaf.Tests

import Verif.Model.Ristretto

/-!
# The unit-test vectors of the repository, run on the model

Each example is one assertion (the dearer ones are left out) of the `#[cfg(test)]` modules of `src/backend/u64/field.rs`,
`src/backend/u64/scalar.rs`, `src/edwards.rs` and `src/ristretto.rs`, evaluated by the kernel on the model
in the overflow-checking profile. They tie the model to the behaviour the repository's own tests record.
-/

set_option maxRecDepth 100000

namespace Zerocaf.Vectors

def c : Cfg := ⟨true, 600⟩

namespace FV
open Zerocaf.Field
def A : FE := ⟨0,0,0,2,0⟩
def B : FE := ⟨2766226127823335, 4237835465749098, 4503599626623787, 4503599627370493, 2199023255551⟩
def C : FE := ⟨2009874587549,0,0,0,0⟩
example : add c minusOne one =
    .ok zero := by decide +kernel
example : add c A B =
    .ok ⟨2766226127823335, 4237835465749098, 4503599626623787, 4503599627370495, 2199023255551⟩ := by decide +kernel
example : add c ⟨2,0,0,0,0⟩ FIELD_L =
    .ok ⟨2,0,0,0,0⟩ := by decide +kernel
example : sub c A B =
    .ok ⟨2409288332882438, 4182428486726422, 2114509, 4, 15393162788864⟩ := by decide +kernel
example : sub c B A =
    .ok ⟨2766226127823335, 4237835465749098, 4503599626623787, 4503599627370491, 2199023255551⟩ := by decide +kernel
example : sub c ⟨2,0,0,0,0⟩ FIELD_L =
    .ok ⟨2,0,0,0,0⟩ := by decide +kernel
example : mul c A B =
    .ok ⟨2201910185007838, 1263014888683320, 1977367609994094, 4238575041099341, 2233595300724⟩ := by decide +kernel
example : mul c A C =
    .ok ⟨0, 0, 0, 4019749175098, 0⟩ := by decide +kernel
example : square c A =
    .ok ⟨671914833335277, 423018350096769, 2042999080933985, 4503598226741381, 17592186044415⟩ := by decide +kernel
example : square c B =
    .ok ⟨3966658334128832, 2102453619223755, 4260110256982373, 4297171677577933, 14791771789536⟩ := by decide +kernel
example : pow c A C =
    .ok ⟨2259014482295528, 2217393058433059, 1440043558784742, 1085733660253890, 11974469306680⟩ := by decide +kernel
example : inverse c A =
    .ok ⟨1289905446467013, 1277206401232501, 2632844239031511, 61125669693438, 17393375336657⟩ := by decide +kernel
example : toMontgomery c A =
    .ok ⟨2317332620045262, 1576144597389635, 2025859686448975, 2756776639866422, 1152749206963⟩ := by decide +kernel
example : legendre c (fromU32 17) =
    .ok true := by decide +kernel
example : modSqrt c (fromU32 17) false =
    .ok (some ⟨933733106825591, 3470287880816342, 2891894702196915, 3836949834964192, 14650685232542⟩) := by decide +kernel
def MOB : Bytes32 := #v[236, 211, 245, 92, 26, 99, 18, 88, 214, 156, 247, 162, 222, 249, 222, 20, 0, 0, 0, 0, 0, 0, 0, 0, 0, 0, 0, 0, 0, 0, 0, 16]
example : fromBytes MOB =
    minusOne := by decide +kernel
example : toBytes minusOne =
    MOB := by decide +kernel
example : (do let a ← sub c A B; half c a) =
    .ok ⟨1204644166441219, 4343014057048459, 1057254, 2, 7696581394432⟩ := by decide +kernel
example : twoPowK 197 =
    .ok ⟨0, 0, 0, 2199023255552, 0⟩ := by decide +kernel
end FV
namespace SV
open Zerocaf.Scalar
def A : Sc := ⟨0,0,0,2,0⟩
def B : Sc := ⟨2766226127823335, 4237835465749098, 4503599626623787, 4503599627370493, 2199023255551⟩
def AB : Sc := ⟨2867050651854460, 1629308859434048, 1461147, 4, 0⟩
def BA : Sc := ⟨2766226127823335, 4237835465749098, 4503599626623787, 4503599627370491, 2199023255551⟩
def X : Sc := ⟨4503599627370495, 4503599627370495, 4503599627370495, 4503599627370495, 4398046511103⟩
def Y : Sc := ⟨138340288859536, 461913478537005, 1182880083788836, 1688835920473363, 1743782656037⟩
example : add c AB BA =
    .ok zero := by decide +kernel
example : add c BA A =
    .ok B := by decide +kernel
example : sub c A B =
    .ok AB := by decide +kernel
example : sub c B A =
    .ok BA := by decide +kernel
example : squareInternal c A =
    .ok ⟨0,0,0,0,0,0,4,0,0⟩ := by decide +kernel
example : toMontgomery c A =
    .ok ⟨690508070349896, 1499135165000273, 3323154938341339, 2542801086174134, 182210350076⟩ := by decide +kernel
example : fromMontgomery c ⟨2880674519323206, 1234984943133080, 2849728124521957, 4421863362992372, 441429835402⟩ =
    .ok Y := by decide +kernel
example : mul c X Y =
    .ok ⟨3955754814270951, 1675310998682037, 4396625830536378, 1174212537684658, 176498809098⟩ := by decide +kernel
example : montgomeryMul c X Y =
    .ok ⟨228255815821095, 3571367814561020, 2885104738833919, 415982367220597, 959709905966⟩ := by decide +kernel
example : square c Y =
    .ok ⟨3511508334592158, 913859277470939, 3383393792942685, 3918279098243301, 1168230887094⟩ := by decide +kernel
example : half c Y =
    .ok ⟨2320969958115016, 230956739268502, 2843239855579666, 3096217773921929, 871891328018⟩ := by decide +kernel
example : shr minusOne 250 =
    zero := by decide +kernel
example : (do let t ← twoPowK 249; pure (shr t 248)) =
    .ok (fromU32 2) := by decide +kernel
example : ((intoBits minusOne).toList.map (·.toNat)) =
    [0, 1, 0, 0, 0, 1, 1, 0, 0, 0, 0, 1, 0, 0, 1, 1, 1, 1, 1, 1, 1, 0, 1, 0, 1, 0, 1, 0, 1, 1, 1, 0, 1, 1, 1, 1, 0, 1, 1, 0, 1, 1, 0, 0, 0, 0, 0, 0, 0, 0, 1, 0, 1, 1, 0, 1, 0, 1, 0, 1, 0, 1, 1, 0, 1, 1, 0, 0, 1, 0, 0, 1, 1, 0, 1, 0, 1, 0, 1, 1, 1, 1, 1, 1, 0, 1, 0, 0, 0, 1, 0, 0, 0, 0, 0, 1, 1, 0, 1, 1, 0, 0, 1, 0, 1, 1, 1, 0, 0, 0, 1, 1, 0, 1, 1, 0, 0, 1, 1, 1, 0, 1, 0, 1] ++ List.replicate 125 0 ++ [1,0,0,0,0,0,0] := by decide +kernel
example : mod2PowK c (fromU128 42535295865117307932887201356513780707) 2 =
    .ok 3 := by decide +kernel
example : (do let v ← computeNAF c (fromU32 7); pure (v.toList.take 5)) =
    .ok [-1,0,0,1,0] := by decide +kernel
example : (do let v ← computeWindowNAF c (fromU64 1122334455) 4; pure (v.toList.take 31)) =
    .ok [7,0,0,0,-1,0,0,0,7,0,0,0,7,0,0,0,5,0,0,0,0,7,0,0,0,1,0,0,0,0,1] := by decide +kernel
example : (do let v ← computeWindowNAF c (fromU64 1122334455) 5; pure (v.toList.take 32)) =
    .ok [-9,0,0,0,0,0,0,0,-9,0,0,0,0,0,0,11,0,0,0,0,0,-9,0,0,0,0,-15,0,0,0,0,1] := by decide +kernel
example : (do let v ← computeWindowNAF c (fromU64 1122334455) 6; pure (v.toList.take 31)) =
    .ok [-9,0,0,0,0,0,0,0,-9,0,0,0,0,0,0,11,0,0,0,0,0,23,0,0,0,0,0,0,0,0,1] := by decide +kernel
end SV
namespace EV
def P1 : EdPoint := ⟨⟨13,0,0,0,0⟩, ⟨606320128494542, 1597163540666577, 1835599237877421, 1667478411389512, 3232679738299⟩, ⟨1,0,0,0,0⟩, ⟨2034732376387996, 3922598123714460, 1344791952818393, 3662820838581677, 6840464509059⟩⟩
def P2 : EdPoint := ⟨⟨67,0,0,0,0⟩, ⟨2369245568431362, 2665603790611352, 3317390952748653, 1908583331312524, 8011773354506⟩, ⟨1,0,0,0,0⟩, ⟨3474019263728064, 2548729061993416, 1588812051971430, 1774293631565269, 9023233419450⟩⟩
def P4 : EdPoint := ⟨⟨28731243678497, 3605893500953713, 4417389530006141, 299092414682919, 4656166963268⟩, ⟨1108585916087857, 594338741746768, 1302451816332899, 2952667069736952, 9685400790709⟩, ⟨3678126740275983, 2102367182843193, 1215780564383894, 577880234309233, 3967832577760⟩, ⟨1187490310723625, 475595246262913, 1092363334429875, 285623496107549, 15708045001361⟩⟩
def P3 : EdPoint := ⟨⟨1476979596852032, 1246004597497903, 209071396735379, 2301211094775178, 8305779568088⟩, ⟨2443441861872082, 2091934391169607, 4475713698486302, 2663476425643860, 11068724258563⟩, ⟨3359568035147073, 1010422717320416, 4098443973666364, 1207164847672527, 9657319892454⟩, ⟨4430735055822517, 4109982164990701, 4066725032805467, 1974812232939042, 2107656041478⟩⟩
example : Ed.ofProj c (Proj.ofEd P1) = .ok P1 := by decide +kernel
example : Ed.add c P1 P2 = .ok P4 := by decide +kernel
example : Proj.add c (Proj.ofEd P1) (Proj.ofEd P2) = .ok (Proj.ofEd P4) := by decide +kernel
example : Proj.double c (Proj.ofEd P1) = .ok (Proj.ofEd P3) := by decide +kernel
example : (do let o ← Ed.newFromY c (Field.fromU32 15) false; pure o.isNone) =
    .ok true := by decide +kernel
def C1 : Bytes32 := #v[206, 11, 225, 231, 113, 39, 18, 141, 213, 215, 201, 201, 90, 173, 14, 134, 192, 119, 133, 134, 164, 26, 38, 1, 201, 94, 187, 59, 186, 170, 240, 2]
def C2 : Bytes32 := #v[2, 245, 125, 248, 208, 106, 136, 57, 210, 240, 163, 133, 151, 109, 214, 81, 69, 38, 201, 203, 56, 203, 247, 138, 125, 108, 10, 162, 231, 98, 73, 7]
example : Ed.compress c P1 =
    .ok C1 := by decide +kernel
example : (do let o ← Ed.decompress c C1; let p ← unwrap o; Ed.ctEq c p P1) =
    .ok true := by decide +kernel
example : Aff.isValid c ⟨P1.X, P1.Y⟩ =
    .ok true := by decide +kernel
example : Ed.isValid c P4 =
    .ok true := by decide +kernel
end EV
namespace RV
example : (do let p ← Ristretto.double c Ed.BASEPOINT; Ristretto.compress c p) =
    .ok #v[171, 228, 234, 152, 234, 174, 218, 90, 156, 99, 135, 156, 179, 196, 217, 180, 160, 30, 211, 26, 195, 131, 172, 239, 215, 237, 73, 134, 30, 26, 128, 2] := by
  decide +kernel
def X : EdPoint := ⟨⟨520984263488427, 2866053035698784, 356812350072736, 1177086814167286, 17585355348321⟩, ⟨2224110940152212, 767723869121786, 2519083920383090, 3478258567033985, 6072297619626⟩, ⟨1, 0, 0, 0, 0⟩, ⟨3761248848988017, 3474827148739807, 3137090891116602, 1521420215868592, 8052069914602⟩⟩
def rb : Bytes32 := #v[46, 45, 124, 111, 136, 124, 129, 193, 89, 63, 50, 226, 250, 49, 167, 182, 93, 79, 187, 243, 143, 138, 179, 4, 94, 173, 34, 252, 69, 116, 50, 25]
example : (do let e ← Ristretto.elligator c (Field.fromBytes rb); Ed.ctEq c e X) =
    .ok true := by decide +kernel
end RV

end Zerocaf.Vectors

import Verif.Model.Instances
import Verif.Math.Primes

/-! # The built-in curves as explicit values

Generated. Each definition is the value that the string parameters of `Verif.Model.Instances` parse to; the equality is
checked by the kernel. -/

set_option maxRecDepth 100000

namespace Redox.Inst

/-- The field size of `P256` and the curves that share it. -/
def p256_p : ℕ := 115792089210356248762697446949407573530086143415290314195533631308867097853951
/-- The group order of `P256` and the curves that share it. -/
def p256_r : ℕ := 115792089210356248762697446949407573529996955224135760342422259061068512044369
theorem p256_p_prime : p256_p.Prime := Primes.prime_p_P256
theorem p256_r_prime : p256_r.Prime := Primes.prime_r_P256
instance : Fact p256_p.Prime := ⟨p256_p_prime⟩

def p256 : Weierstrass.Curve where
  f := ⟨p256_p⟩
  a := ⟨115792089210356248762697446949407573530086143415290314195533631308867097853948, ⟨p256_p⟩⟩
  b := ⟨41058363725152142129326129780047268409114441015993725554835256314039467401291, ⟨p256_p⟩⟩
  r := p256_r
  h := 1
  gx := ⟨48439561293906451759052585252797914202762949526041747995844080717082404635286, ⟨p256_p⟩⟩
  gy := ⟨36134250956749795798585127919587881956611106672985015071877198253568414405109, ⟨p256_p⟩⟩

theorem p256_eq : P256 = R.ok p256 := by decide +kernel

/-- The field size of `P384` and the curves that share it. -/
def p384_p : ℕ := 39402006196394479212279040100143613805079739270465446667948293404245721771496870329047266088258938001861606973112319
/-- The group order of `P384` and the curves that share it. -/
def p384_r : ℕ := 39402006196394479212279040100143613805079739270465446667946905279627659399113263569398956308152294913554433653942643
theorem p384_p_prime : p384_p.Prime := Primes.prime_p_P384
theorem p384_r_prime : p384_r.Prime := Primes.prime_r_P384
instance : Fact p384_p.Prime := ⟨p384_p_prime⟩

def p384 : Weierstrass.Curve where
  f := ⟨p384_p⟩
  a := ⟨39402006196394479212279040100143613805079739270465446667948293404245721771496870329047266088258938001861606973112316, ⟨p384_p⟩⟩
  b := ⟨27580193559959705877849011840389048093056905856361568521428707301988689241309860865136260764883745107765439761230575, ⟨p384_p⟩⟩
  r := p384_r
  h := 1
  gx := ⟨26247035095799689268623156744566981891852923491109213387815615900925518854738050089022388053975719786650872476732087, ⟨p384_p⟩⟩
  gy := ⟨8325710961489029985546751289520108179287853048861315594709205902480503199884419224438643760392947333078086511627871, ⟨p384_p⟩⟩

theorem p384_eq : P384 = R.ok p384 := by decide +kernel

/-- The field size of `P521` and the curves that share it. -/
def p521_p : ℕ := 6864797660130609714981900799081393217269435300143305409394463459185543183397656052122559640661454554977296311391480858037121987999716643812574028291115057151
/-- The group order of `P521` and the curves that share it. -/
def p521_r : ℕ := 6864797660130609714981900799081393217269435300143305409394463459185543183397655394245057746333217197532963996371363321113864768612440380340372808892707005449
theorem p521_p_prime : p521_p.Prime := Primes.prime_p_P521
theorem p521_r_prime : p521_r.Prime := Primes.prime_r_P521
instance : Fact p521_p.Prime := ⟨p521_p_prime⟩

def p521 : Weierstrass.Curve where
  f := ⟨p521_p⟩
  a := ⟨6864797660130609714981900799081393217269435300143305409394463459185543183397656052122559640661454554977296311391480858037121987999716643812574028291115057148, ⟨p521_p⟩⟩
  b := ⟨1093849038073734274511112390766805569936207598951683748994586394495953116150735016013708737573759623248592132296706313309438452531591012912142327488478985984, ⟨p521_p⟩⟩
  r := p521_r
  h := 1
  gx := ⟨2661740802050217063228768716723360960729859168756973147706671368418802944996427808491545080627771902352094241225065558662157113545570916814161637315895999846, ⟨p521_p⟩⟩
  gy := ⟨3757180025770020463545507224491183603594455134769762486694567779615544477440556316691234405012945539562144444537289428522585666729196580810124344277578376784, ⟨p521_p⟩⟩

theorem p521_eq : P521 = R.ok p521 := by decide +kernel

/-- The field size of `SECP256K1` and the curves that share it. -/
def secp256k1_p : ℕ := 115792089237316195423570985008687907853269984665640564039457584007908834671663
/-- The group order of `SECP256K1` and the curves that share it. -/
def secp256k1_r : ℕ := 115792089237316195423570985008687907852837564279074904382605163141518161494337
theorem secp256k1_p_prime : secp256k1_p.Prime := Primes.prime_p_SECP256K1
theorem secp256k1_r_prime : secp256k1_r.Prime := Primes.prime_r_SECP256K1
instance : Fact secp256k1_p.Prime := ⟨secp256k1_p_prime⟩

def secp256k1 : Weierstrass.Curve where
  f := ⟨secp256k1_p⟩
  a := ⟨0, ⟨secp256k1_p⟩⟩
  b := ⟨7, ⟨secp256k1_p⟩⟩
  r := secp256k1_r
  h := 1
  gx := ⟨55066263022277343669578718895168534326250603453777594175500187360389116729240, ⟨secp256k1_p⟩⟩
  gy := ⟨32670510020758816978083085130507043184471273380659243275938904335757337482424, ⟨secp256k1_p⟩⟩

theorem secp256k1_eq : SECP256K1 = R.ok secp256k1 := by decide +kernel

def secp256k1_3iso : Weierstrass.Curve where
  f := ⟨secp256k1_p⟩
  a := ⟨28734576633528757162648956269730739219262246272443394170905244663053633733939, ⟨secp256k1_p⟩⟩
  b := ⟨1771, ⟨secp256k1_p⟩⟩
  r := secp256k1_r
  h := 1
  gx := ⟨75295888890003590383366995344834012177557063699577440394299653383124903397514, ⟨secp256k1_p⟩⟩
  gy := ⟨82553647407850972504999846303729620951309077682374043495922869307182479212755, ⟨secp256k1_p⟩⟩

theorem secp256k1_3iso_eq : SECP256K1_3ISO = R.ok secp256k1_3iso := by decide +kernel

/-- The field size of `BLS12381G1` and the curves that share it. -/
def bls12381g1_p : ℕ := 4002409555221667393417789825735904156556882819939007885332058136124031650490837864442687629129015664037894272559787
/-- The group order of `BLS12381G1` and the curves that share it. -/
def bls12381g1_r : ℕ := 52435875175126190479447740508185965837690552500527637822603658699938581184513
theorem bls12381g1_p_prime : bls12381g1_p.Prime := Primes.prime_p_BLS12381G1
theorem bls12381g1_r_prime : bls12381g1_r.Prime := Primes.prime_r_BLS12381G1
instance : Fact bls12381g1_p.Prime := ⟨bls12381g1_p_prime⟩

def bls12381g1 : Weierstrass.Curve where
  f := ⟨bls12381g1_p⟩
  a := ⟨0, ⟨bls12381g1_p⟩⟩
  b := ⟨4, ⟨bls12381g1_p⟩⟩
  r := bls12381g1_r
  h := 15132376222941642753
  gx := ⟨3685416753713387016781088315183077757961620795782546409894578378688607592378376318836054947676345821548104185464507, ⟨bls12381g1_p⟩⟩
  gy := ⟨1339506544944476473020471379941921221584933875938349620426543736416511423956333506472724655353366534992391756441569, ⟨bls12381g1_p⟩⟩

theorem bls12381g1_eq : BLS12381G1 = R.ok bls12381g1 := by decide +kernel

def bls12381g1_11iso : Weierstrass.Curve where
  f := ⟨bls12381g1_p⟩
  a := ⟨12190336318893619529228877361869031420615612348429846051986726275283378313155663745811710833465465981901188123677, ⟨bls12381g1_p⟩⟩
  b := ⟨2906670324641927570491258158026293881577086121416628140204402091718288198173574630967936031029026176254968826637280, ⟨bls12381g1_p⟩⟩
  r := bls12381g1_r
  h := 15132376222941642753
  gx := ⟨1020232295111649411126762359530270833151925872915888263107080350435116244445972822132949957555221231229957568042978, ⟨bls12381g1_p⟩⟩
  gy := ⟨572738012940399893876716047881377207991025392386390068007901896139525257801331726850963609787517204283814804267188, ⟨bls12381g1_p⟩⟩

theorem bls12381g1_11iso_eq : BLS12381G1_11ISO = R.ok bls12381g1_11iso := by decide +kernel

/-- The field size of `CURVE25519` and the curves that share it. -/
def curve25519_p : ℕ := 57896044618658097711785492504343953926634992332820282019728792003956564819949
/-- The group order of `CURVE25519` and the curves that share it. -/
def curve25519_r : ℕ := 7237005577332262213973186563042994240857116359379907606001950938285454250989
theorem curve25519_p_prime : curve25519_p.Prime := Primes.prime_p_CURVE25519
theorem curve25519_r_prime : curve25519_r.Prime := Primes.prime_r_CURVE25519
instance : Fact curve25519_p.Prime := ⟨curve25519_p_prime⟩

def curve25519 : Montgomery.Curve where
  f := ⟨curve25519_p⟩
  a := ⟨486662, ⟨curve25519_p⟩⟩
  b := ⟨1, ⟨curve25519_p⟩⟩
  s := ⟨1, ⟨curve25519_p⟩⟩
  r := curve25519_r
  h := 8
  gx := ⟨9, ⟨curve25519_p⟩⟩
  gy := ⟨43114425171068552920764898935933967039370386198203806730763910166200978582548, ⟨curve25519_p⟩⟩

theorem curve25519_eq : CURVE25519 = R.ok curve25519 := by decide +kernel

/-- The field size of `CURVE448` and the curves that share it. -/
def curve448_p : ℕ := 726838724295606890549323807888004534353641360687318060281490199180612328166730772686396383698676545930088884461843637361053498018365439
/-- The group order of `CURVE448` and the curves that share it. -/
def curve448_r : ℕ := 181709681073901722637330951972001133588410340171829515070372549795146003961539585716195755291692375963310293709091662304773755859649779
theorem curve448_p_prime : curve448_p.Prime := Primes.prime_p_CURVE448
theorem curve448_r_prime : curve448_r.Prime := Primes.prime_r_CURVE448
instance : Fact curve448_p.Prime := ⟨curve448_p_prime⟩

def curve448 : Montgomery.Curve where
  f := ⟨curve448_p⟩
  a := ⟨156326, ⟨curve448_p⟩⟩
  b := ⟨1, ⟨curve448_p⟩⟩
  s := ⟨3, ⟨curve448_p⟩⟩
  r := curve448_r
  h := 4
  gx := ⟨5, ⟨curve448_p⟩⟩
  gy := ⟨355293926785568175264127502063783334808976399387714271831880898435169088786967410002932673765864550910142774147268105838985595290606362, ⟨curve448_p⟩⟩

theorem curve448_eq : CURVE448 = R.ok curve448 := by decide +kernel

def edwards25519 : Edwards.Curve where
  f := ⟨curve25519_p⟩
  a := ⟨57896044618658097711785492504343953926634992332820282019728792003956564819948, ⟨curve25519_p⟩⟩
  d := ⟨37095705934669439343138083508754565189542113879843219016388785533085940283555, ⟨curve25519_p⟩⟩
  r := curve25519_r
  h := 8
  gx := ⟨15112221349535400772501151409588531511454012693041857206046113283949847762202, ⟨curve25519_p⟩⟩
  gy := ⟨46316835694926478169428394003475163141307993866256225615783033603165251855960, ⟨curve25519_p⟩⟩

theorem edwards25519_eq : EDWARDS25519 = R.ok edwards25519 := by decide +kernel

def edwards448 : Edwards.Curve where
  f := ⟨curve448_p⟩
  a := ⟨1, ⟨curve448_p⟩⟩
  d := ⟨726838724295606890549323807888004534353641360687318060281490199180612328166730772686396383698676545930088884461843637361053498018326358, ⟨curve448_p⟩⟩
  r := curve448_r
  h := 4
  gx := ⟨224580040295924300187604334099896036246789641632564134246125461686950415467406032909029192869357953282578032075146446173674602635247710, ⟨curve448_p⟩⟩
  gy := ⟨298819210078481492676017930443930673437544040154080242095928241372331506189835876003536878655418784733982303233503462500531545062832660, ⟨curve448_p⟩⟩

theorem edwards448_eq : EDWARDS448 = R.ok edwards448 := by decide +kernel

end Redox.Inst

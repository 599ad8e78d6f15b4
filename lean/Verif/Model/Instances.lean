import Verif.Model.Maps

/-!
# Curve instances

src/instances/{weier,mont,edw}.rs, with `From<&Params> for Curve` of the three families.
Generated from the sources by copying each string literal.
-/

namespace Redox

/-- `Params` (src/weierstrass/curve.rs:169-179). -/
structure Weierstrass.Params where
  name : List Byte
  p : List Byte
  a : List Byte
  b : List Byte
  r : List Byte
  h : List Byte
  gx : List Byte
  gy : List Byte

/-- `From<&Params> for Curve` (src/weierstrass/curve.rs:181-194). -/
def Weierstrass.Curve.ofParams (q : Weierstrass.Params) : R Weierstrass.Curve := do
  let f := Fp.new (← biguintFromStr q.p)
  let a ← f.fromStr q.a
  let b ← f.fromStr q.b
  let r ← biguintFromStr q.r
  let h ← biguintFromStr q.h
  let gx ← f.fromStr q.gx
  let gy ← f.fromStr q.gy
  return { f, a, b, r, h, gx, gy }

/-- `P256_PARAMS` (src/instances/weier.rs:36-45). -/
def P256_PARAMS : Weierstrass.Params where
  name := ascii! "P256"
  p := ascii! "115792089210356248762697446949407573530086143415290314195533631308867097853951"
  a := ascii! "-3"
  b := ascii! "41058363725152142129326129780047268409114441015993725554835256314039467401291"
  r := ascii! "115792089210356248762697446949407573529996955224135760342422259061068512044369"
  h := ascii! "1"
  gx := ascii! "48439561293906451759052585252797914202762949526041747995844080717082404635286"
  gy := ascii! "36134250956749795798585127919587881956611106672985015071877198253568414405109"

/-- `P384_PARAMS` (src/instances/weier.rs:46-55). -/
def P384_PARAMS : Weierstrass.Params where
  name := ascii! "P384"
  p := ascii! "39402006196394479212279040100143613805079739270465446667948293404245721771496870329047266088258938001861606973112319"
  a := ascii! "-3"
  b := ascii! "27580193559959705877849011840389048093056905856361568521428707301988689241309860865136260764883745107765439761230575"
  r := ascii! "39402006196394479212279040100143613805079739270465446667946905279627659399113263569398956308152294913554433653942643"
  h := ascii! "1"
  gx := ascii! "26247035095799689268623156744566981891852923491109213387815615900925518854738050089022388053975719786650872476732087"
  gy := ascii! "8325710961489029985546751289520108179287853048861315594709205902480503199884419224438643760392947333078086511627871"

/-- `P521_PARAMS` (src/instances/weier.rs:56-65). -/
def P521_PARAMS : Weierstrass.Params where
  name := ascii! "P521"
  p := ascii! "6864797660130609714981900799081393217269435300143305409394463459185543183397656052122559640661454554977296311391480858037121987999716643812574028291115057151"
  a := ascii! "-3"
  b := ascii! "1093849038073734274511112390766805569936207598951683748994586394495953116150735016013708737573759623248592132296706313309438452531591012912142327488478985984"
  r := ascii! "6864797660130609714981900799081393217269435300143305409394463459185543183397655394245057746333217197532963996371363321113864768612440380340372808892707005449"
  h := ascii! "1"
  gx := ascii! "2661740802050217063228768716723360960729859168756973147706671368418802944996427808491545080627771902352094241225065558662157113545570916814161637315895999846"
  gy := ascii! "3757180025770020463545507224491183603594455134769762486694567779615544477440556316691234405012945539562144444537289428522585666729196580810124344277578376784"

/-- `SECP256K1_PARAMS` (src/instances/weier.rs:66-75). -/
def SECP256K1_PARAMS : Weierstrass.Params where
  name := ascii! "secp256k1"
  p := ascii! "115792089237316195423570985008687907853269984665640564039457584007908834671663"
  a := ascii! "0"
  b := ascii! "7"
  r := ascii! "115792089237316195423570985008687907852837564279074904382605163141518161494337"
  h := ascii! "1"
  gx := ascii! "55066263022277343669578718895168534326250603453777594175500187360389116729240"
  gy := ascii! "32670510020758816978083085130507043184471273380659243275938904335757337482424"

/-- `SECP256K1_3ISO_PARAMS` (src/instances/weier.rs:76-85). -/
def SECP256K1_3ISO_PARAMS : Weierstrass.Params where
  name := ascii! "secp256k1_3iso"
  p := ascii! "115792089237316195423570985008687907853269984665640564039457584007908834671663"
  a := ascii! "28734576633528757162648956269730739219262246272443394170905244663053633733939"
  b := ascii! "1771"
  r := ascii! "115792089237316195423570985008687907852837564279074904382605163141518161494337"
  h := ascii! "1"
  gx := ascii! "75295888890003590383366995344834012177557063699577440394299653383124903397514"
  gy := ascii! "82553647407850972504999846303729620951309077682374043495922869307182479212755"

/-- `BLS12381G1_PARAMS` (src/instances/weier.rs:87-96). -/
def BLS12381G1_PARAMS : Weierstrass.Params where
  name := ascii! "bls12381_g1"
  p := ascii! "4002409555221667393417789825735904156556882819939007885332058136124031650490837864442687629129015664037894272559787"
  a := ascii! "0"
  b := ascii! "4"
  r := ascii! "52435875175126190479447740508185965837690552500527637822603658699938581184513"
  h := ascii! "15132376222941642753"
  gx := ascii! "0x17f1d3a73197d7942695638c4fa9ac0fc3688c4f9774b905a14e3a3f171bac586c55e83ff97a1aeffb3af00adb22c6bb"
  gy := ascii! "0x8b3f481e3aaa0f1a09e30ed741d8ae4fcf5e095d5d00af600db18cb2c04b3edd03cc744a2888ae40caa232946c5e7e1"

/-- `BLS12381G1_11ISO_PARAMS` (src/instances/weier.rs:97-106). -/
def BLS12381G1_11ISO_PARAMS : Weierstrass.Params where
  name := ascii! "bls12381_g1_11iso"
  p := ascii! "4002409555221667393417789825735904156556882819939007885332058136124031650490837864442687629129015664037894272559787"
  a := ascii! "0x144698a3b8e9433d693a02c96d4982b0ea985383ee66a8d8e8981aefd881ac98936f8da0e0f97f5cf428082d584c1d"
  b := ascii! "0x12e2908d11688030018b12e8753eee3b2016c1f0f24f4070a0b9c14fcef35ef55a23215a316ceaa5d1cc48e98e172be0"
  r := ascii! "52435875175126190479447740508185965837690552500527637822603658699938581184513"
  h := ascii! "15132376222941642753"
  gx := ascii! "0x6a0ead062ba73a09984eb7351a2d851bc817625345ce033a6eb7d78242b6466c877e022dda626a79ddb85bce57997e2"
  gy := ascii! "0x3b89d8bb9326270e46b6b74e19f7b3f10082fbf1a46df72da50c6571b969afc570d6529350b1b9b05ab4fe5c29920b4"

/-- `P256.get()` (src/instances/weier.rs:22, 7-13). -/
def P256 : R Weierstrass.Curve := Weierstrass.Curve.ofParams P256_PARAMS

/-- `P384.get()` (src/instances/weier.rs:24, 7-13). -/
def P384 : R Weierstrass.Curve := Weierstrass.Curve.ofParams P384_PARAMS

/-- `P521.get()` (src/instances/weier.rs:26, 7-13). -/
def P521 : R Weierstrass.Curve := Weierstrass.Curve.ofParams P521_PARAMS

/-- `SECP256K1.get()` (src/instances/weier.rs:28, 7-13). -/
def SECP256K1 : R Weierstrass.Curve := Weierstrass.Curve.ofParams SECP256K1_PARAMS

/-- `SECP256K1_3ISO.get()` (src/instances/weier.rs:30, 7-13). -/
def SECP256K1_3ISO : R Weierstrass.Curve := Weierstrass.Curve.ofParams SECP256K1_3ISO_PARAMS

/-- `BLS12381G1.get()` (src/instances/weier.rs:32, 7-13). -/
def BLS12381G1 : R Weierstrass.Curve := Weierstrass.Curve.ofParams BLS12381G1_PARAMS

/-- `BLS12381G1_11ISO.get()` (src/instances/weier.rs:34, 7-13). -/
def BLS12381G1_11ISO : R Weierstrass.Curve := Weierstrass.Curve.ofParams BLS12381G1_11ISO_PARAMS

/-- `Params` (src/montgomery/curve.rs:174-185). -/
structure Montgomery.Params where
  name : List Byte
  p : List Byte
  a : List Byte
  b : List Byte
  s : List Byte
  r : List Byte
  h : List Byte
  gx : List Byte
  gy : List Byte

/-- `From<&Params> for Curve` (src/montgomery/curve.rs:187-201). -/
def Montgomery.Curve.ofParams (q : Montgomery.Params) : R Montgomery.Curve := do
  let f := Fp.new (← biguintFromStr q.p)
  let a ← f.fromStr q.a
  let b ← f.fromStr q.b
  let s ← f.fromStr q.s
  let r ← biguintFromStr q.r
  let h ← biguintFromStr q.h
  let gx ← f.fromStr q.gx
  let gy ← f.fromStr q.gy
  return { f, a, b, s, r, h, gx, gy }

/-- `CURVE25519_PARAMS` (src/instances/mont.rs:26-36). -/
def CURVE25519_PARAMS : Montgomery.Params where
  name := ascii! "curve25519"
  p := ascii! "57896044618658097711785492504343953926634992332820282019728792003956564819949"
  a := ascii! "486662"
  b := ascii! "1"
  s := ascii! "1"
  r := ascii! "7237005577332262213973186563042994240857116359379907606001950938285454250989"
  h := ascii! "8"
  gx := ascii! "9"
  gy := ascii! "43114425171068552920764898935933967039370386198203806730763910166200978582548"

/-- `CURVE448_PARAMS` (src/instances/mont.rs:38-48). -/
def CURVE448_PARAMS : Montgomery.Params where
  name := ascii! "curve448"
  p := ascii! "726838724295606890549323807888004534353641360687318060281490199180612328166730772686396383698676545930088884461843637361053498018365439"
  a := ascii! "156326"
  b := ascii! "1"
  s := ascii! "3"
  r := ascii! "181709681073901722637330951972001133588410340171829515070372549795146003961539585716195755291692375963310293709091662304773755859649779"
  h := ascii! "4"
  gx := ascii! "5"
  gy := ascii! "355293926785568175264127502063783334808976399387714271831880898435169088786967410002932673765864550910142774147268105838985595290606362"

/-- `CURVE25519.get()` (src/instances/mont.rs:22, 7-13). -/
def CURVE25519 : R Montgomery.Curve := Montgomery.Curve.ofParams CURVE25519_PARAMS

/-- `CURVE448.get()` (src/instances/mont.rs:24, 7-13). -/
def CURVE448 : R Montgomery.Curve := Montgomery.Curve.ofParams CURVE448_PARAMS

/-- `Params` (src/edwards/curve.rs:159-169). -/
structure Edwards.Params where
  name : List Byte
  p : List Byte
  a : List Byte
  d : List Byte
  r : List Byte
  h : List Byte
  gx : List Byte
  gy : List Byte

/-- `From<&Params> for Curve` (src/edwards/curve.rs:171-184). -/
def Edwards.Curve.ofParams (q : Edwards.Params) : R Edwards.Curve := do
  let f := Fp.new (← biguintFromStr q.p)
  let a ← f.fromStr q.a
  let d ← f.fromStr q.d
  let r ← biguintFromStr q.r
  let h ← biguintFromStr q.h
  let gx ← f.fromStr q.gx
  let gy ← f.fromStr q.gy
  return { f, a, d, r, h, gx, gy }

/-- `EDWARDS25519_PARAMS` (src/instances/edw.rs:26-35). -/
def EDWARDS25519_PARAMS : Edwards.Params where
  name := ascii! "edwards25519"
  p := ascii! "57896044618658097711785492504343953926634992332820282019728792003956564819949"
  a := ascii! "-1"
  d := ascii! "37095705934669439343138083508754565189542113879843219016388785533085940283555"
  r := ascii! "7237005577332262213973186563042994240857116359379907606001950938285454250989"
  h := ascii! "8"
  gx := ascii! "15112221349535400772501151409588531511454012693041857206046113283949847762202"
  gy := ascii! "46316835694926478169428394003475163141307993866256225615783033603165251855960"

/-- `EDWARDS448_PARAMS` (src/instances/edw.rs:37-46). -/
def EDWARDS448_PARAMS : Edwards.Params where
  name := ascii! "edwards448"
  p := ascii! "726838724295606890549323807888004534353641360687318060281490199180612328166730772686396383698676545930088884461843637361053498018365439"
  a := ascii! "1"
  d := ascii! "-39081"
  r := ascii! "181709681073901722637330951972001133588410340171829515070372549795146003961539585716195755291692375963310293709091662304773755859649779"
  h := ascii! "4"
  gx := ascii! "224580040295924300187604334099896036246789641632564134246125461686950415467406032909029192869357953282578032075146446173674602635247710"
  gy := ascii! "298819210078481492676017930443930673437544040154080242095928241372331506189835876003536878655418784733982303233503462500531545062832660"

/-- `EDWARDS25519.get()` (src/instances/edw.rs:22, 7-13). -/
def EDWARDS25519 : R Edwards.Curve := Edwards.Curve.ofParams EDWARDS25519_PARAMS

/-- `EDWARDS448.get()` (src/instances/edw.rs:24, 7-13). -/
def EDWARDS448 : R Edwards.Curve := Edwards.Curve.ofParams EDWARDS448_PARAMS

end Redox

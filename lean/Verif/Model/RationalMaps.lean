import Verif.Model.Instances

/-!
# src/instances/rational_maps.rs
-/

namespace Redox

/-- `struct Ed2Mt25519` (src/instances/rational_maps.rs:26-30). -/
structure Ed2Mt25519 where
  e0 : Edwards.Curve
  e1 : Montgomery.Curve
  invsqr_d : FpElt
deriving DecidableEq, Repr

namespace Ed2Mt25519

/-- `push` (src/instances/rational_maps.rs:42-57). -/
def push (m : Ed2Mt25519) (p : Edwards.Point) : R Montgomery.Point := do
  if p.isZero then m.e1.identity
  else
    let (x, y, z) := (p.c.x, p.c.y, p.c.z)
    let t0 ← z +! y
    let xx ← x *! t0
    let yy ← m.invsqr_d *! z *! t0
    let zz ← x *! (z -! y)
    m.e1.newProyPoint ⟨xx, yy, zz⟩

/-- `pull` (src/instances/rational_maps.rs:58-84). -/
def pull (m : Ed2Mt25519) (p : Montgomery.Point) : R Edwards.Point := do
  if p.isZero then m.e0.identity
  else if p.isTwoTorsion then
    let ff := m.e0.getField
    m.e0.newProyPoint ⟨← ff.zero, ← -! ff.one, ← ff.zero, ← ff.one⟩
  else
    let (x, y, z) := (p.c.x, p.c.y, p.c.z)
    let add ← x +! z
    let sub ← x -! z
    let xx ← m.invsqr_d *! x *! add
    let yy ← y *! sub
    let tt ← m.invsqr_d *! x *! sub
    let zz ← y *! add
    m.e0.newProyPoint ⟨xx, yy, tt, zz⟩

/-- `impl RationalMap for Ed2Mt25519` (src/instances/rational_maps.rs:32-85). -/
def toRationalMap (m : Ed2Mt25519) : RationalMap where
  domain := R.ok m.e0
  codomain := R.ok m.e1
  push := m.push
  pull := m.pull

end Ed2Mt25519

/-- `edwards25519_to_curve25519()` (src/instances/rational_maps.rs:17-24). -/
def edwards25519_to_curve25519 : R Ed2Mt25519 := do
  let e0 ← EDWARDS25519
  let e1 ← CURVE25519
  let f := e0.getField
  let invsqr_d ←
    f.fromStr (ascii! "6853475219497561581579357271197624642482790079785650197046958215289687604742")
  return ⟨e0, e1, invsqr_d⟩

/-- `struct Ed4isoMt448` (src/instances/rational_maps.rs:93-96). -/
structure Ed4isoMt448 where
  e0 : Edwards.Curve
  e1 : Montgomery.Curve
deriving DecidableEq, Repr

namespace Ed4isoMt448

/-- `push` (src/instances/rational_maps.rs:108-127). -/
def push (m : Ed4isoMt448) (p : Edwards.Point) : R Montgomery.Point := do
  if p.isZero then m.e1.identity
  else
    let (x, y, z) := (p.c.x, p.c.y, p.c.z)
    let ff := m.e1.getField
    let f2 ← ff.fromPrim 2
    let x2 ← x ^²
    let y2 ← y ^²
    let z2 ← z ^²
    let zz ← x *! x2
    let xx ← x *! y2
    let yy ← y *! (f2 *! z2 -! y2 -! x2)
    m.e1.newProyPoint ⟨xx, yy, zz⟩

/-- `pull` (src/instances/rational_maps.rs:128-158). -/
def pull (m : Ed4isoMt448) (p : Montgomery.Point) : R Edwards.Point := do
  if p.isZero then m.e0.identity
  else
    let ff := m.e0.getField
    let f2 ← ff.fromPrim 2
    let f4 ← ff.fromPrim 4
    let (x, y, z) := (p.c.x, p.c.y, p.c.z)
    let x2 ← x ^²
    let x3 ← x2 *! x
    let x4 ← x2 ^²
    let x5 ← x3 *! x2
    let y2 ← y ^²
    let z2 ← z ^²
    let z3 ← z2 *! z
    let z4 ← z2 ^²
    let xx ← f4 *! y *! z *! (x2 -! z2)
    let z0 ← x4 -! f2 *! x2 *! z2 +! z4 +! f4 *! y2 *! z2
    let yy ← -! (x5 -! f2 *! x3 *! z2 +! x *! z4 -! f4 *! x *! y2 *! z2)
    let z1 ← x5 -! f2 *! x3 *! z2 +! x *! z4 -! f2 *! x2 *! y2 *! z -! f2 *! y2 *! z3
    let tt ← xx *! yy
    let xx ← xx *! z1
    let yy ← yy *! z0
    let zz ← z0 *! z1
    m.e0.newProyPoint ⟨xx, yy, tt, zz⟩

/-- `impl RationalMap for Ed4isoMt448` (src/instances/rational_maps.rs:98-159). -/
def toRationalMap (m : Ed4isoMt448) : RationalMap where
  domain := R.ok m.e0
  codomain := R.ok m.e1
  push := m.push
  pull := m.pull

end Ed4isoMt448

/-- `edwards448_to_curve448()` (src/instances/rational_maps.rs:87-91). -/
def edwards448_to_curve448 : R Ed4isoMt448 := do
  return ⟨← EDWARDS448, ← CURVE448⟩

/-- `struct Isosecp256k1` and `struct IsoBls12381G1`, which have the same fields
(src/instances/rational_maps.rs:161-168, 234-241). -/
structure IsoMap where
  e0 : Weierstrass.Curve
  e1 : Weierstrass.Curve
  x_num : List FpElt
  x_den : List FpElt
  y_num : List FpElt
  y_den : List FpElt
deriving DecidableEq, Repr

/-- One accumulator of the loops `for i in (0..n).rev() { acc = (acc * &x) + &c[i] }`
(src/instances/rational_maps.rs:222-227, 335-342) with `n = c.len()`. The four accumulators are independent; all
coefficient vectors indexed by one loop have the same length. -/
def horner (f : Fp) (x : FpElt) : List FpElt → R FpElt
  | [] => f.zero
  | c :: cs => (horner f x cs *! x) +! c

namespace IsoMap

/-- `push` (src/instances/rational_maps.rs:213-231, 326-347). -/
def push (m : IsoMap) (p : Weierstrass.Point) : R Weierstrass.Point := do
  let f := m.e0.getField
  let x := p.c.x
  let y := p.c.y
  let x_num ← horner f x m.x_num
  let x_den ← horner f x m.x_den
  let y_num ← horner f x m.y_num
  let y_den ← horner f x m.y_den
  let xx ← x_num /! x_den
  let yy ← y *! (y_num /! y_den)
  m.e1.newPoint xx yy

/-- `impl Isogeny` (src/instances/rational_maps.rs:204-232, 317-348). -/
def toIsogeny (m : IsoMap) : Isogeny where
  domain := R.ok m.e0
  codomain := R.ok m.e1
  push := m.push

end IsoMap

/-- A literal coefficient: `f.from("..")`, `f.one()` or `f.zero()` (src/instances/rational_maps.rs:171-202, 244-315). -/
inductive Coeff where
  | str (s : List Byte)
  | one
  | zero

/-- Evaluate one entry of the `vec![..]` literals (src/instances/rational_maps.rs:171-202, 244-315). -/
def Coeff.eval (f : Fp) : Coeff → R FpElt
  | .str s => f.fromStr s
  | .one => f.one
  | .zero => f.zero

/-- Evaluate a `vec![..]` literal (src/instances/rational_maps.rs:171-202, 244-315). -/
def evalCoeffs (f : Fp) : List Coeff → R (List FpElt)
  | [] => R.ok []
  | c :: cs => do return (← c.eval f) :: (← evalCoeffs f cs)

/-- `x_num` of `get_isogeny_secp256k1()` (src/instances/rational_maps.rs:171-202). -/
def secp256k1_x_num : List Coeff := [
  .str (ascii! "0x8e38e38e38e38e38e38e38e38e38e38e38e38e38e38e38e38e38e38daaaaa8c7"),
  .str (ascii! "0x07d3d4c80bc321d5b9f315cea7fd44c5d595d2fc0bf63b92dfff1044f17c6581"),
  .str (ascii! "0x534c328d23f234e6e2a413deca25caece4506144037c40314ecbd0b53d9dd262"),
  .str (ascii! "0x8e38e38e38e38e38e38e38e38e38e38e38e38e38e38e38e38e38e38daaaaa88c")]

/-- `x_den` of `get_isogeny_secp256k1()` (src/instances/rational_maps.rs:171-202). -/
def secp256k1_x_den : List Coeff := [
  .str (ascii! "0xd35771193d94918a9ca34ccbb7b640dd86cd409542f8487d9fe6b745781eb49b"),
  .str (ascii! "0xedadc6f64383dc1df7c4b2d51b54225406d36b641f5e41bbc52a56612a8c6d14"),
  .one,
  .zero]

/-- `y_num` of `get_isogeny_secp256k1()` (src/instances/rational_maps.rs:171-202). -/
def secp256k1_y_num : List Coeff := [
  .str (ascii! "0x4bda12f684bda12f684bda12f684bda12f684bda12f684bda12f684b8e38e23c"),
  .str (ascii! "0xc75e0c32d5cb7c0fa9d0a54b12a0a6d5647ab046d686da6fdffc90fc201d71a3"),
  .str (ascii! "0x29a6194691f91a73715209ef6512e576722830a201be2018a765e85a9ecee931"),
  .str (ascii! "0x2f684bda12f684bda12f684bda12f684bda12f684bda12f684bda12f38e38d84")]

/-- `y_den` of `get_isogeny_secp256k1()` (src/instances/rational_maps.rs:171-202). -/
def secp256k1_y_den : List Coeff := [
  .str (ascii! "0xfffffffffffffffffffffffffffffffffffffffffffffffffffffffefffff93b"),
  .str (ascii! "0x7a06534bb8bdb49fd5e9e6632722c2989467c1bfc8e8d978dfb425d2685c2573"),
  .str (ascii! "0x6484aa716545ca2cf3a70c3fa8fe337e0a3d21162f0d6299a7bf8192bfd2a76f"),
  .one]

/-- `get_isogeny_secp256k1()` (src/instances/rational_maps.rs:171-202). -/
def get_isogeny_secp256k1 : R IsoMap := do
  let curve ← SECP256K1
  let f := curve.getField
  let x_num ← evalCoeffs f secp256k1_x_num
  let x_den ← evalCoeffs f secp256k1_x_den
  let y_num ← evalCoeffs f secp256k1_y_num
  let y_den ← evalCoeffs f secp256k1_y_den
  return ⟨← SECP256K1_3ISO, curve, x_num, x_den, y_num, y_den⟩

/-- `x_num` of `get_isogeny_bls12381g1()` (src/instances/rational_maps.rs:244-315). -/
def bls12381g1_x_num : List Coeff := [
  .str (ascii! "0x11a05f2b1e833340b809101dd99815856b303e88a2d7005ff2627b56cdb4e2c85610c2d5f2e62d6eaeac1662734649b7"),
  .str (ascii! "0x17294ed3e943ab2f0588bab22147a81c7c17e75b2f6a8417f565e33c70d1e86b4838f2a6f318c356e834eef1b3cb83bb"),
  .str (ascii! "0xd54005db97678ec1d1048c5d10a9a1bce032473295983e56878e501ec68e25c958c3e3d2a09729fe0179f9dac9edcb0"),
  .str (ascii! "0x1778e7166fcc6db74e0609d307e55412d7f5e4656a8dbf25f1b33289f1b330835336e25ce3107193c5b388641d9b6861"),
  .str (ascii! "0xe99726a3199f4436642b4b3e4118e5499db995a1257fb3f086eeb65982fac18985a286f301e77c451154ce9ac8895d9"),
  .str (ascii! "0x1630c3250d7313ff01d1201bf7a74ab5db3cb17dd952799b9ed3ab9097e68f90a0870d2dcae73d19cd13c1c66f652983"),
  .str (ascii! "0xd6ed6553fe44d296a3726c38ae652bfb11586264f0f8ce19008e218f9c86b2a8da25128c1052ecaddd7f225a139ed84"),
  .str (ascii! "0x17b81e7701abdbe2e8743884d1117e53356de5ab275b4db1a682c62ef0f2753339b7c8f8c8f475af9ccb5618e3f0c88e"),
  .str (ascii! "0x80d3cf1f9a78fc47b90b33563be990dc43b756ce79f5574a2c596c928c5d1de4fa295f296b74e956d71986a8497e317"),
  .str (ascii! "0x169b1f8e1bcfa7c42e0c37515d138f22dd2ecb803a0c5c99676314baf4bb1b7fa3190b2edc0327797f241067be390c9e"),
  .str (ascii! "0x10321da079ce07e272d8ec09d2565b0dfa7dccdde6787f96d50af36003b14866f69b771f8c285decca67df3f1605fb7b"),
  .str (ascii! "0x6e08c248e260e70bd1e962381edee3d31d79d7e22c837bc23c0bf1bc24c6b68c24b1b80b64d391fa9c8ba2e8ba2d229")]

/-- `x_den` of `get_isogeny_bls12381g1()` (src/instances/rational_maps.rs:244-315). -/
def bls12381g1_x_den : List Coeff := [
  .str (ascii! "0x8ca8d548cff19ae18b2e62f4bd3fa6f01d5ef4ba35b48ba9c9588617fc8ac62b558d681be343df8993cf9fa40d21b1c"),
  .str (ascii! "0x12561a5deb559c4348b4711298e536367041e8ca0cf0800c0126c2588c48bf5713daa8846cb026e9e5c8276ec82b3bff"),
  .str (ascii! "0xb2962fe57a3225e8137e629bff2991f6f89416f5a718cd1fca64e00b11aceacd6a3d0967c94fedcfcc239ba5cb83e19"),
  .str (ascii! "0x3425581a58ae2fec83aafef7c40eb545b08243f16b1655154cca8abc28d6fd04976d5243eecf5c4130de8938dc62cd8"),
  .str (ascii! "0x13a8e162022914a80a6f1d5f43e7a07dffdfc759a12062bb8d6b44e833b306da9bd29ba81f35781d539d395b3532a21e"),
  .str (ascii! "0xe7355f8e4e667b955390f7f0506c6e9395735e9ce9cad4d0a43bcef24b8982f7400d24bc4228f11c02df9a29f6304a5"),
  .str (ascii! "0x772caacf16936190f3e0c63e0596721570f5799af53a1894e2e073062aede9cea73b3538f0de06cec2574496ee84a3a"),
  .str (ascii! "0x14a7ac2a9d64a8b230b3f5b074cf01996e7f63c21bca68a81996e1cdf9822c580fa5b9489d11e2d311f7d99bbdcc5a5e"),
  .str (ascii! "0xa10ecf6ada54f825e920b3dafc7a3cce07f8d1d7161366b74100da67f39883503826692abba43704776ec3a79a1d641"),
  .str (ascii! "0x95fc13ab9e92ad4476d6e3eb3a56680f682b4ee96f7d03776df533978f31c1593174e4b4b7865002d6384d168ecdd0a"),
  .one,
  .zero]

/-- `y_num` of `get_isogeny_bls12381g1()` (src/instances/rational_maps.rs:244-315). -/
def bls12381g1_y_num : List Coeff := [
  .str (ascii! "0x90d97c81ba24ee0259d1f094980dcfa11ad138e48a869522b52af6c956543d3cd0c7aee9b3ba3c2be9845719707bb33"),
  .str (ascii! "0x134996a104ee5811d51036d776fb46831223e96c254f383d0f906343eb67ad34d6c56711962fa8bfe097e75a2e41c696"),
  .str (ascii! "0xcc786baa966e66f4a384c86a3b49942552e2d658a31ce2c344be4b91400da7d26d521628b00523b8dfe240c72de1f6"),
  .str (ascii! "0x1f86376e8981c217898751ad8746757d42aa7b90eeb791c09e4a3ec03251cf9de405aba9ec61deca6355c77b0e5f4cb"),
  .str (ascii! "0x8cc03fdefe0ff135caf4fe2a21529c4195536fbe3ce50b879833fd221351adc2ee7f8dc099040a841b6daecf2e8fedb"),
  .str (ascii! "0x16603fca40634b6a2211e11db8f0a6a074a7d0d4afadb7bd76505c3d3ad5544e203f6326c95a807299b23ab13633a5f0"),
  .str (ascii! "0x4ab0b9bcfac1bbcb2c977d027796b3ce75bb8ca2be184cb5231413c4d634f3747a87ac2460f415ec961f8855fe9d6f2"),
  .str (ascii! "0x987c8d5333ab86fde9926bd2ca6c674170a05bfe3bdd81ffd038da6c26c842642f64550fedfe935a15e4ca31870fb29"),
  .str (ascii! "0x9fc4018bd96684be88c9e221e4da1bb8f3abd16679dc26c1e8b6e6a1f20cabe69d65201c78607a360370e577bdba587"),
  .str (ascii! "0xe1bba7a1186bdb5223abde7ada14a23c42a0ca7915af6fe06985e7ed1e4d43b9b3f7055dd4eba6f2bafaaebca731c30"),
  .str (ascii! "0x19713e47937cd1be0dfd0b8f1d43fb93cd2fcbcb6caf493fd1183e416389e61031bf3a5cce3fbafce813711ad011c132"),
  .str (ascii! "0x18b46a908f36f6deb918c143fed2edcc523559b8aaf0c2462e6bfe7f911f643249d9cdf41b44d606ce07c8a4d0074d8e"),
  .str (ascii! "0xb182cac101b9399d155096004f53f447aa7b12a3426b08ec02710e807b4633f06c851c1919211f20d4c04f00b971ef8"),
  .str (ascii! "0x245a394ad1eca9b72fc00ae7be315dc757b3b080d4c158013e6632d3c40659cc6cf90ad1c232a6442d9d3f5db980133"),
  .str (ascii! "0x5c129645e44cf1102a159f748c4a3fc5e673d81d7e86568d9ab0f5d396a7ce46ba1049b6579afb7866b1e715475224b"),
  .str (ascii! "0x15e6be4e990f03ce4ea50b3b42df2eb5cb181d8f84965a3957add4fa95af01b2b665027efec01c7704b456be69c8b604")]

/-- `y_den` of `get_isogeny_bls12381g1()` (src/instances/rational_maps.rs:244-315). -/
def bls12381g1_y_den : List Coeff := [
  .str (ascii! "0x16112c4c3a9c98b252181140fad0eae9601a6de578980be6eec3232b5be72e7a07f3688ef60c206d01479253b03663c1"),
  .str (ascii! "0x1962d75c2381201e1a0cbd6c43c348b885c84ff731c4d59ca4a10356f453e01f78a4260763529e3532f6102c2e49a03d"),
  .str (ascii! "0x58df3306640da276faaae7d6e8eb15778c4855551ae7f310c35a5dd279cd2eca6757cd636f96f891e2538b53dbf67f2"),
  .str (ascii! "0x16b7d288798e5395f20d23bf89edb4d1d115c5dbddbcd30e123da489e726af41727364f2c28297ada8d26d98445f5416"),
  .str (ascii! "0xbe0e079545f43e4b00cc912f8228ddcc6d19c9f0f69bbb0542eda0fc9dec916a20b15dc0fd2ededda39142311a5001d"),
  .str (ascii! "0x8d9e5297186db2d9fb266eaac783182b70152c65550d881c5ecd87b6f0f5a6449f38db9dfa9cce202c6477faaf9b7ac"),
  .str (ascii! "0x166007c08a99db2fc3ba8734ace9824b5eecfdfa8d0cf8ef5dd365bc400a0051d5fa9c01a58b1fb93d1a1399126a775c"),
  .str (ascii! "0x16a3ef08be3ea7ea03bcddfabba6ff6ee5a4375efa1f4fd7feb34fd206357132b920f5b00801dee460ee415a15812ed9"),
  .str (ascii! "0x1866c8ed336c61231a1be54fd1d74cc4f9fb0ce4c6af5920abc5750c4bf39b4852cfe2f7bb9248836b233d9d55535d4a"),
  .str (ascii! "0x167a55cda70a6e1cea820597d94a84903216f763e13d87bb5308592e7ea7d4fbc7385ea3d529b35e346ef48bb8913f55"),
  .str (ascii! "0x4d2f259eea405bd48f010a01ad2911d9c6dd039bb61a6290e591b36e636a5c871a5c29f4f83060400f8b49cba8f6aa8"),
  .str (ascii! "0xaccbb67481d033ff5852c1e48c50c477f94ff8aefce42d28c0f9a88cea7913516f968986f7ebbea9684b529e2561092"),
  .str (ascii! "0xad6b9514c767fe3c3613144b45f1496543346d98adf02267d5ceef9a00d9b8693000763e3b90ac11e99b138573345cc"),
  .str (ascii! "0x2660400eb2e4f3b628bdd0d53cd76f2bf565b94e72927c1cb748df27942480e420517bd8714cc80d1fadc1326ed06f7"),
  .str (ascii! "0xe0fa1d816ddc03e6b24255e0d7819c171c40f65e273b853324efcd6356caa205ca2f570f13497804415473a1d634b8f"),
  .one]

/-- `get_isogeny_bls12381g1()` (src/instances/rational_maps.rs:244-315). -/
def get_isogeny_bls12381g1 : R IsoMap := do
  let curve ← BLS12381G1
  let f := curve.getField
  let x_num ← evalCoeffs f bls12381g1_x_num
  let x_den ← evalCoeffs f bls12381g1_x_den
  let y_num ← evalCoeffs f bls12381g1_y_num
  let y_den ← evalCoeffs f bls12381g1_y_den
  return ⟨← BLS12381G1_11ISO, curve, x_num, x_den, y_num, y_den⟩

end Redox

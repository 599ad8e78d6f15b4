import Verif.Props.InstanceProps

/-! # The built-in parameters are the published ones (C55)

The literals below are written from the standards named in each comment, not copied from the code. -/

set_option maxRecDepth 100000

namespace Redox.Props.Inst

open Redox.Spec Redox.Inst

/-- C55, `P256`: NIST SP 800-186, curve P-256. -/
theorem _root_.Redox.Props.C55_p256 : ∃ e : Weierstrass.Curve, P256 = R.ok e ∧
    e.getField.p = 2 ^ 256 - 2 ^ 224 + 2 ^ 192 + 2 ^ 96 - 1 ∧
    e.a.n = e.getField.p - 3 ∧
    e.b.n = 0x5ac635d8aa3a93e7b3ebbd55769886bc651d06b0cc53b0f63bce3c3e27d2604b ∧
    e.gx.n = 0x6b17d1f2e12c4247f8bce6e563a440f277037d812deb33a0f4a13945d898c296 ∧
    e.gy.n = 0x4fe342e2fe1a7f9b8ee7eb4a7c0f9e162bce33576b315ececbb6406837bf51f5 ∧
    e.getOrder = 0xffffffff00000000ffffffffffffffffbce6faada7179e84f3b9cac2fc632551 ∧
    e.getCofactor = 1 :=
  ⟨_, p256_eq, by decide +kernel, by decide +kernel, by decide +kernel, by decide +kernel, by decide +kernel, by decide +kernel, by decide +kernel⟩

/-- C55, `P384`: NIST SP 800-186, curve P-384. -/
theorem _root_.Redox.Props.C55_p384 : ∃ e : Weierstrass.Curve, P384 = R.ok e ∧
    e.getField.p = 2 ^ 384 - 2 ^ 128 - 2 ^ 96 + 2 ^ 32 - 1 ∧
    e.a.n = e.getField.p - 3 ∧
    e.b.n = 0xb3312fa7e23ee7e4988e056be3f82d19181d9c6efe8141120314088f5013875ac656398d8a2ed19d2a85c8edd3ec2aef ∧
    e.gx.n = 0xaa87ca22be8b05378eb1c71ef320ad746e1d3b628ba79b9859f741e082542a385502f25dbf55296c3a545e3872760ab7 ∧
    e.gy.n = 0x3617de4a96262c6f5d9e98bf9292dc29f8f41dbd289a147ce9da3113b5f0b8c00a60b1ce1d7e819d7a431d7c90ea0e5f ∧
    e.getOrder = 0xffffffffffffffffffffffffffffffffffffffffffffffffc7634d81f4372ddf581a0db248b0a77aecec196accc52973 ∧
    e.getCofactor = 1 :=
  ⟨_, p384_eq, by decide +kernel, by decide +kernel, by decide +kernel, by decide +kernel, by decide +kernel, by decide +kernel, by decide +kernel⟩

/-- C55, `P521`: NIST SP 800-186, curve P-521. -/
theorem _root_.Redox.Props.C55_p521 : ∃ e : Weierstrass.Curve, P521 = R.ok e ∧
    e.getField.p = 2 ^ 521 - 1 ∧
    e.a.n = e.getField.p - 3 ∧
    e.b.n = 0x51953eb9618e1c9a1f929a21a0b68540eea2da725b99b315f3b8b489918ef109e156193951ec7e937b1652c0bd3bb1bf073573df883d2c34f1ef451fd46b503f00 ∧
    e.gx.n = 0xc6858e06b70404e9cd9e3ecb662395b4429c648139053fb521f828af606b4d3dbaa14b5e77efe75928fe1dc127a2ffa8de3348b3c1856a429bf97e7e31c2e5bd66 ∧
    e.gy.n = 0x11839296a789a3bc0045c8a5fb42c7d1bd998f54449579b446817afbd17273e662c97ee72995ef42640c550b9013fad0761353c7086a272c24088be94769fd16650 ∧
    e.getOrder = 0x1fffffffffffffffffffffffffffffffffffffffffffffffffffffffffffffffffa51868783bf2f966b7fcc0148f709a5d03bb5c9b8899c47aebb6fb71e91386409 ∧
    e.getCofactor = 1 :=
  ⟨_, p521_eq, by decide +kernel, by decide +kernel, by decide +kernel, by decide +kernel, by decide +kernel, by decide +kernel, by decide +kernel⟩

/-- C55, `SECP256K1`: SEC 2, curve secp256k1. -/
theorem _root_.Redox.Props.C55_secp256k1 : ∃ e : Weierstrass.Curve, SECP256K1 = R.ok e ∧
    e.getField.p = 2 ^ 256 - 2 ^ 32 - 977 ∧
    e.a.n = 0 ∧
    e.b.n = 7 ∧
    e.gx.n = 0x79be667ef9dcbbac55a06295ce870b07029bfcdb2dce28d959f2815b16f81798 ∧
    e.gy.n = 0x483ada7726a3c4655da4fbfc0e1108a8fd17b448a68554199c47d08ffb10d4b8 ∧
    e.getOrder = 0xfffffffffffffffffffffffffffffffebaaedce6af48a03bbfd25e8cd0364141 ∧
    e.getCofactor = 1 :=
  ⟨_, secp256k1_eq, by decide +kernel, by decide +kernel, by decide +kernel, by decide +kernel, by decide +kernel, by decide +kernel, by decide +kernel⟩

/-- C55, `SECP256K1_3ISO`: RFC 9380, section 8.7. -/
theorem _root_.Redox.Props.C55_secp256k1_3iso : ∃ e : Weierstrass.Curve, SECP256K1_3ISO = R.ok e ∧
    e.getField.p = 2 ^ 256 - 2 ^ 32 - 977 ∧
    e.a.n = 0x3f8731abdd661adca08a5558f0f5d272e953d363cb6f0e5d405447c01a444533 ∧
    e.b.n = 1771 ∧
    e.getOrder = 0xfffffffffffffffffffffffffffffffebaaedce6af48a03bbfd25e8cd0364141 ∧
    e.getCofactor = 1 :=
  ⟨_, secp256k1_3iso_eq, by decide +kernel, by decide +kernel, by decide +kernel, by decide +kernel, by decide +kernel⟩

/-- C55, `BLS12381G1`: RFC 9380, section 8.8.1, and the BLS12-381 parameters. -/
theorem _root_.Redox.Props.C55_bls12381g1 : ∃ e : Weierstrass.Curve, BLS12381G1 = R.ok e ∧
    e.getField.p = blsP ∧
    e.a.n = 0 ∧
    e.b.n = 4 ∧
    e.gx.n = 0x17f1d3a73197d7942695638c4fa9ac0fc3688c4f9774b905a14e3a3f171bac586c55e83ff97a1aeffb3af00adb22c6bb ∧
    e.gy.n = 0x8b3f481e3aaa0f1a09e30ed741d8ae4fcf5e095d5d00af600db18cb2c04b3edd03cc744a2888ae40caa232946c5e7e1 ∧
    e.getOrder = blsR ∧
    e.getCofactor = blsX + 1 :=
  ⟨_, bls12381g1_eq, by decide +kernel, by decide +kernel, by decide +kernel, by decide +kernel, by decide +kernel, by decide +kernel, by decide +kernel⟩

/-- C55, `BLS12381G1_11ISO`: RFC 9380, section 8.8.1. -/
theorem _root_.Redox.Props.C55_bls12381g1_11iso : ∃ e : Weierstrass.Curve, BLS12381G1_11ISO = R.ok e ∧
    e.getField.p = blsP ∧
    e.a.n = 0x144698a3b8e9433d693a02c96d4982b0ea985383ee66a8d8e8981aefd881ac98936f8da0e0f97f5cf428082d584c1d ∧
    e.b.n = 0x12e2908d11688030018b12e8753eee3b2016c1f0f24f4070a0b9c14fcef35ef55a23215a316ceaa5d1cc48e98e172be0 ∧
    e.getOrder = blsR ∧
    e.getCofactor = blsX + 1 :=
  ⟨_, bls12381g1_11iso_eq, by decide +kernel, by decide +kernel, by decide +kernel, by decide +kernel, by decide +kernel⟩

/-- C55, `CURVE25519`: RFC 7748, section 4.1 (with erratum 4730 for the y-coordinate). -/
theorem _root_.Redox.Props.C55_curve25519 : ∃ e : Montgomery.Curve, CURVE25519 = R.ok e ∧
    e.getField.p = 2 ^ 255 - 19 ∧
    e.a.n = 486662 ∧
    e.b.n = 1 ∧
    e.gx.n = 9 ∧
    e.gy.n = 0x5f51e65e475f794b1fe122d388b72eb36dc2b28192839e4dd6163a5d81312c14 ∧
    e.getOrder = 2 ^ 252 + 0x14def9dea2f79cd65812631a5cf5d3ed ∧
    e.getCofactor = 8 :=
  ⟨_, curve25519_eq, by decide +kernel, by decide +kernel, by decide +kernel, by decide +kernel, by decide +kernel, by decide +kernel, by decide +kernel⟩

/-- C55, `CURVE448`: RFC 7748, section 4.2. -/
theorem _root_.Redox.Props.C55_curve448 : ∃ e : Montgomery.Curve, CURVE448 = R.ok e ∧
    e.getField.p = 2 ^ 448 - 2 ^ 224 - 1 ∧
    e.a.n = 156326 ∧
    e.b.n = 1 ∧
    e.gx.n = 5 ∧
    e.gy.n = 355293926785568175264127502063783334808976399387714271831880898435169088786967410002932673765864550910142774147268105838985595290606362 ∧
    e.getOrder = 2 ^ 446 - 0x8335dc163bb124b65129c96fde933d8d723a70aadc873d6d54a7bb0d ∧
    e.getCofactor = 4 :=
  ⟨_, curve448_eq, by decide +kernel, by decide +kernel, by decide +kernel, by decide +kernel, by decide +kernel, by decide +kernel, by decide +kernel⟩

/-- C55, `EDWARDS25519`: RFC 8032, section 5.1. -/
theorem _root_.Redox.Props.C55_edwards25519 : ∃ e : Edwards.Curve, EDWARDS25519 = R.ok e ∧
    e.getField.p = 2 ^ 255 - 19 ∧
    e.a.n = e.getField.p - 1 ∧
    (e.d.n * 121666 + 121665) % e.getField.p = 0 ∧
    (e.gy.n * 5) % e.getField.p = 4 ∧
    e.gx.n % 2 = 0 ∧
    e.getOrder = 2 ^ 252 + 0x14def9dea2f79cd65812631a5cf5d3ed ∧
    e.getCofactor = 8 :=
  ⟨_, edwards25519_eq, by decide +kernel, by decide +kernel, by decide +kernel, by decide +kernel, by decide +kernel, by decide +kernel, by decide +kernel⟩

/-- C55, `EDWARDS448`: RFC 8032, section 5.2. -/
theorem _root_.Redox.Props.C55_edwards448 : ∃ e : Edwards.Curve, EDWARDS448 = R.ok e ∧
    e.getField.p = 2 ^ 448 - 2 ^ 224 - 1 ∧
    e.a.n = 1 ∧
    e.d.n = e.getField.p - 39081 ∧
    e.gx.n = 224580040295924300187604334099896036246789641632564134246125461686950415467406032909029192869357953282578032075146446173674602635247710 ∧
    e.gy.n = 298819210078481492676017930443930673437544040154080242095928241372331506189835876003536878655418784733982303233503462500531545062832660 ∧
    e.getOrder = 2 ^ 446 - 0x8335dc163bb124b65129c96fde933d8d723a70aadc873d6d54a7bb0d ∧
    e.getCofactor = 4 :=
  ⟨_, edwards448_eq, by decide +kernel, by decide +kernel, by decide +kernel, by decide +kernel, by decide +kernel, by decide +kernel, by decide +kernel⟩

end Redox.Props.Inst

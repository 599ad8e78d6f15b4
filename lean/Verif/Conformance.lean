import Verif.Model.Instances
import Verif.Model.Maps
import Verif.Model.RationalMaps

/-!
# The model against published test vectors and against the tests of the repository

These are runs of the model on literals, not properties: they support the claim that the model is the program. Each is evaluated by the kernel.
The sources are RFC 9380 (appendix J, first message of each suite, the value of `Q0`), RFC 7748 (section 6, the public keys), the multiples of
the generators of P-256 and secp256k1 that are commonly tabulated, and the unit tests in /repo/src/*/curve.rs.
-/

set_option maxRecDepth 100000

namespace Redox.Conformance

/-- The affine coordinates of the point returned. -/
def wAffine (r : R Weierstrass.Point) : R (Int × Int) := do
  let P ← (← r).normalize
  return (P.c.x.n, P.c.y.n)

/-- The affine coordinates of the point returned. -/
def mAffine (r : R Montgomery.Point) : R (Int × Int) := do
  let P ← (← r).normalize
  return (P.c.x.n, P.c.y.n)

/-- The affine coordinates of the point returned. -/
def eAffine (r : R Edwards.Point) : R (Int × Int) := do
  let P ← (← r).normalize
  return (P.c.x.n, P.c.y.n)

/-! ## RFC 9380 -/

/-- P256_XMD:SHA-256_SSWU_RO_, empty message, `u[0]` and `Q0`. -/
theorem rfc9380_p256 : wAffine (do
    let e ← P256
    let m ← Weierstrass.SSWU.new e (← e.f.fromPrim (-10))
    m.map (← e.f.elt 0xad5342c66a6dd0ff080df1da0ea1c04b96e0330dd89406465eeba11582515009)) =
    R.ok (0xab640a12220d3ff283510ff3f4b1953d09fad35795140b1c5d64f313967934d5,
      0xdccb558863804a881d4fff3455716c836cef230e5209594ddd33d85c565b19b1) := by
  decide +kernel

/-- P384_XMD:SHA-384_SSWU_RO_, empty message. -/
theorem rfc9380_p384 : wAffine (do
    let e ← P384
    let m ← Weierstrass.SSWU.new e (← e.f.fromPrim (-12))
    m.map (← e.f.elt 0x25c8d7dc1acd4ee617766693f7f8829396065d1b447eedb155871feffd9c6653279ac7e5c46edb7010a0e4ff64c9f3b4)) =
    R.ok (0xe4717e29eef38d862bee4902a7d21b44efb58c464e3e1f0d03894d94de310f8ffc6de86786dd3e15a1541b18d4eb2846,
      0x6b95a6e639822312298a47526bb77d9cd7bcf76244c991c8cd70075e2ee6e8b9a135c4a37e3c0768c7ca871c0ceb53d4) := by
  decide +kernel

/-- P521_XMD:SHA-512_SSWU_RO_, empty message. -/
theorem rfc9380_p521 : wAffine (do
    let e ← P521
    let m ← Weierstrass.SSWU.new e (← e.f.fromPrim (-4))
    m.map (← e.f.elt
      0x01e5f09974e5724f25286763f00ce76238c7a6e03dc396600350ee2c4135fb17dc555be99a4a4bae0fd303d4f66d984ed7b6a3ba386093752a855d26d559d69e7e9e)) =
    R.ok (
      0x00b70ae99b6339fffac19cb9bfde2098b84f75e50ac1e80d6acb954e4534af5f0e9c4a5b8a9c10317b8e6421574bae2b133b4f2b8c6ce4b3063da1d91d34fa2b3a3c,
      0x007f368d98a4ddbf381fb354de40e44b19e43bb11a1278759f4ea7b485e1b6db33e750507c071250e3e443c1aaed61f2c28541bb54b1b456843eda1eb15ec2a9b36e) := by
  decide +kernel

/-- secp256k1_XMD:SHA-256_SSWU_RO_, empty message: through the 3-isogenous curve. -/
theorem rfc9380_secp256k1 : wAffine (do
    let e ← SECP256K1
    let m ← Weierstrass.SSWUAB0.new e (← e.f.fromPrim (-11)) (← get_isogeny_secp256k1).toIsogeny
    m.map (← e.f.elt 0x6b0f9910dd2ba71c78f2ee9f04d73b5f4c5f7fc773a701abea1e573cab002fb3)) =
    R.ok (0x74519ef88b32b425a095e4ebcc84d81b64e9e2c2675340a720bb1a1857b99f1e,
      0xc174fa322ab7c192e11748beed45b508e9fdb1ce046dee9c2cd3a2a86b410936) := by
  decide +kernel

/-- BLS12381G1_XMD:SHA-256_SSWU_RO_, empty message: through the 11-isogenous curve. -/
theorem rfc9380_bls12381g1 : wAffine (do
    let e ← BLS12381G1
    let m ← Weierstrass.SSWUAB0.new e (← e.f.fromPrim 11) (← get_isogeny_bls12381g1).toIsogeny
    m.map (← e.f.elt 0x0ba14bd907ad64a016293ee7c2d276b8eae71f25a4b941eece7b0d89f17f75cb3ae5438a614fb61d6835ad59f29c564f)) =
    R.ok (0x11a3cce7e1d90975990066b2f2643b9540fa40d6137780df4e753a8054d07580db3b7f1f03396333d4a359d1fe3766fe,
      0x0eeaf6d794e479e270da10fdaf768db4c96b650a74518fc67b04b03927754bac66f3ac720404f339ecdcc028afa091b7) := by
  decide +kernel

/-- curve25519_XMD:SHA-512_ELL2_RO_, empty message. -/
theorem rfc9380_curve25519 : mAffine (do
    let e ← CURVE25519
    let m ← Montgomery.Ell2.new e (← e.f.fromPrim 2)
    m.map (← e.f.elt 0x005fe8a7b8fef0a16c105e6cadf5a6740b3365e18692a9c05bfbb4d97f645a6a)) =
    R.ok (0x36b4df0c864c64707cbf6cf36e9ee2c09a6cb93b28313c169be29561bb904f98,
      0x6cd59d664fb58c66c892883cd0eb792e52055284dac3907dd756b45d15c3983d) := by
  decide +kernel

/-- edwards25519_XMD:SHA-512_ELL2_RO_, empty message. -/
theorem rfc9380_edwards25519 : eAffine (do
    let e ← EDWARDS25519
    let m ← Edwards.Ell2.new e (← e.f.fromPrim 2) (some (← edwards25519_to_curve25519).toRationalMap)
    m.map (← e.f.elt 0x03fef4813c8cb5f98c6eef88fae174e6e7d5380de2b007799ac7ee712d203f3a)) =
    R.ok (0x6549118f65bb617b9e8b438decedc73c496eaed496806d3b2eb9ee60b88e09a7,
      0x7315bcc8cf47ed68048d22bad602c6680b3382a08c7c5d3f439a973fb4cf9feb) := by
  decide +kernel

/-! ## Multiples of generators -/

/-- P-256: `112233445566778899 * G`. -/
theorem p256_multiple : wAffine (do
    let e ← P256
    (← e.getGenerator).mul .debug (← e.newScalar 112233445566778899)) =
    R.ok (0x339150844ec15234807fe862a86be77977dbfb3ae3d96f4c22795513aeaab82f,
      0xb1c14ddfdc8ec1b2583f51e85a5eb3a155840f2034730e9b5ada38b674336a21) := by
  decide +kernel

/-- secp256k1: `2 * G`, by addition. -/
theorem secp256k1_double : wAffine (do
    let e ← SECP256K1
    (← e.getGenerator).add (← e.getGenerator)) =
    R.ok (0xc6047f9441ed7d6d3045406e95c07cd85c778e4b8cef3ca7abac09b95c709ee5,
      0x1ae168fea63dc339a3c58419466ceaeef7f632653266d0e1236431a950cfe52a) := by
  decide +kernel

/-- The little-endian bytes of a hexadecimal literal written in big-endian order. -/
def le (len : Nat) (n : Nat) : List Byte := (List.range len).map fun i => UInt8.ofNat (n / 256 ^ i % 256)

/-- RFC 7748, section 6.1: the public key of Bob (the clamped private key is given as a number). -/
theorem rfc7748_x25519 : (mAffine (do
    let e ← CURVE25519
    (← e.getGenerator).mul .debug
      (← e.newScalar 0x6be088ff278b2f1cfdb6182629b13b6fe60e80838b7fe1794b8a4a627e08ab58))).bind (fun P => R.ok P.1) =
    R.ok 0x4f2b886f147efcad4d67785bc843833f3735e4ecc2615bd3b4c17d7b7ddb9ede := by
  decide +kernel

/-- edwards25519: the encoding of `2 * G`. -/
theorem edwards25519_double : (do
    let e ← EDWARDS25519
    (← (← e.getGenerator).add (← e.getGenerator)).encode true) =
    R.ok (le 32 0x2260cdf3092329c21da25ee8c9a21f5697390f51643851560e5f46ae6af8a3c9) := by
  decide +kernel

/-! ## The unit tests of the repository -/

/-- `point_serialization` and `point_serialization_compressed` (src/weierstrass/curve.rs:205-239) for one curve and one choice of compression. -/
def wTest (c : R Weierstrass.Curve) (compress : Bool) : R Bool := do
  let ec ← c
  let len := ec.getField.sizeBytes
  let gen ← ec.getGenerator
  let ser ← gen.encode compress
  match ← ec.decode ser with
  | .error _ => return false
  | .ok deser => return ser.length == (if compress then len + 1 else 2 * len + 1) && (← ec.isOnCurve deser) && (← gen.eq deser)

/-- `point_serialization` and `point_serialization_compressed` (src/montgomery/curve.rs:212-246). -/
def mTest (c : R Montgomery.Curve) (compress : Bool) : R Bool := do
  let ec ← c
  let len := ec.getField.sizeBytes
  let gen ← ec.getGenerator
  let ser ← gen.encode compress
  match ← ec.decode ser with
  | .error _ => return false
  | .ok deser => return ser.length == (if compress then len + 1 else 2 * len + 1) && (← ec.isOnCurve deser) && (← gen.eq deser)

/-- `point_serialization` (src/edwards/curve.rs:195-211). -/
def eTest (c : R Edwards.Curve) : R Bool := do
  let ec ← c
  let gen ← ec.getGenerator
  let ser ← gen.encode false
  match ← ec.decode ser with
  | .error _ => return false
  | .ok deser => return ser.length == (Big.bits ec.getField.p + 1 + 7) / 8 && (← ec.isOnCurve deser) && (← gen.eq deser)

/-- The unit tests on curves pass on the model. -/
theorem unit_tests :
    (∀ c ∈ [P256, P384, P521], ∀ b : Bool, wTest c b = R.ok true) ∧ (∀ c ∈ [CURVE25519, CURVE448], ∀ b : Bool, mTest c b = R.ok true) ∧
    ∀ c ∈ [EDWARDS25519, EDWARDS448], eTest c = R.ok true := by
  refine ⟨?_, ?_, ?_⟩ <;> decide +kernel

end Redox.Conformance

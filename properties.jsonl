{"id": "C01", "title": "Prime-field arithmetic is arithmetic modulo p", "statement": "For a field built by Fp::new(p) and any integers a, b: elt(a)+elt(b), elt(a)-elt(b), elt(a)*elt(b), -elt(a) and elt(a)^2u32 return exactly elt(a+b), elt(a-b), elt(a*b), elt(-a), elt(a*a), and elt(a)==elt(b) holds exactly when p divides a-b. No operation on two elements of one field panics.", "quantifier": "every modulus p>=1 and all integers a, b of any size", "why_tests_cant": "Tests sample a few pairs; the law must hold for every pair of unbounded integers and every modulus.", "anchors": ["src/primefield/mod.rs: Fp::elt, FpElt::red, impl Add/Sub/Mul/Neg/BitXor<u32>"]}
{"id": "C02", "title": "Every reachable field element is canonical", "statement": "Whatever sequence of public operations (elt, from, from_bytes, zero, one, +, -, *, /, neg, ^, sqrt, cmov, set_zero, set_one) produced an element of a field with p>=2, the integer it displays is in 0..p-1, so two elements denote the same residue exactly when == says so and when they print the same.", "quantifier": "every modulus p>=2 and every finite history of operations", "why_tests_cant": "Histories are unbounded; a test can only run some of them.", "anchors": ["src/primefield/mod.rs: FpElt, Fp::elt, red, PartialEq, Display, set_zero, set_one"]}
{"id": "C03", "title": "Division inverts multiplication; division by zero is total", "statement": "In a field of prime modulus p>2, for every a and every nonzero b, (a/b)*b == a and (1u32/b)*b == one; dividing by zero never panics and returns zero. For p=2 dividing by zero returns the numerator instead.", "quantifier": "every prime p and all elements a, b", "why_tests_cant": "The exponentiation-based inverse is correct for all residues only by Fermat's little theorem, over primes of any size.", "anchors": ["src/primefield/mod.rs: inv_mod, impl Div, Div<&FpElt> for u32, BitXor<i32>"]}
{"id": "C04", "title": "Elements of different fields never mix", "statement": "+, -, *, / between elements whose fields have different moduli always panic (\"elements of different fields\") and never return a value; the same operations inside one field (any p>=1 for + - *, any p>=2 for /) never panic.", "quantifier": "all pairs of moduli and elements", "why_tests_cant": "Must hold for every pair of fields, not just sampled ones.", "anchors": ["src/primefield/mod.rs: impl_op_ex!, do_if_eq!, Fp: PartialEq"]}
{"id": "C05", "title": "Exponentiation by arbitrary integers", "statement": "x ^ &BigUint e is the e-th power of x for every x and e. x ^ &BigInt e, for prime p, is the e-th power (negative e meaning powers of the inverse) for every nonzero x. For x = 0 and e != 0 a user expects 0.", "quantifier": "every prime modulus, element and integer exponent of either sign", "why_tests_cant": "Exponents are unbounded and the reduction modulo p-1 is only right because of Fermat's theorem; the zero base is a corner case.", "anchors": ["src/primefield/mod.rs: BitXor<&BigUint>, BitXor<&BigInt>"]}
{"id": "C06", "title": "is_square decides quadratic residuosity", "statement": "For an odd prime p, x.is_square() returns true exactly when some element y of the field satisfies y*y == x (zero counts as a square).", "quantifier": "every odd prime p and element x", "why_tests_cant": "Requires Euler's criterion for all primes.", "anchors": ["src/primefield/mod.rs: Sqrt::is_square"]}
{"id": "C07", "title": "sqrt returns a square root whenever it is implemented", "statement": "For prime p with p%4==3 or p%8==5 and any x that is a square, x.sqrt() returns y with y*y == x and never panics, even for non-squares. For p%8==1 (and p=2) sqrt panics on every input.", "quantifier": "every prime p and every element", "why_tests_cant": "Correctness depends on number theory for infinitely many primes.", "anchors": ["src/primefield/mod.rs: calc_sqrt_precmp, Sqrt::sqrt"]}
{"id": "C08", "title": "The square-root cache is invisible", "statement": "The lazily filled per-field cache never changes a result: in every single-threaded history of sqrt calls on clones of a field, each call returns what a call on a fresh field would return, and the cell is never found borrowed. A user would also expect this of concurrent calls from several threads.", "quantifier": "every history of sqrt calls and every interleaving of two or more threads", "why_tests_cant": "Order of calls and thread interleavings cannot be enumerated by tests.", "anchors": ["src/primefield/mod.rs: get_sqrt_precmp, Params.sqrt_precmp", "src/quadraticfield/mod.rs: get_sqrt_precmp"]}
{"id": "C09", "title": "sgn0 picks exactly one of x and -x", "statement": "For odd p, sgn0 returns 1 or -1, sgn0(0) is 1, and for every nonzero x sgn0(-x) == -sgn0(x); it is -1 exactly when the canonical representative is odd.", "quantifier": "every odd modulus and element", "why_tests_cant": "Must hold for all residues.", "anchors": ["src/primefield/mod.rs: Sgn0::sgn0"]}
{"id": "C10", "title": "Field element serialization round-trips at fixed length", "statement": "to_bytes_be and to_bytes_le never panic and always return size_bytes() bytes; one is the reverse of the other; from_bytes_be(to_bytes_be(x)) == x and from_bytes_le(to_bytes_le(x)) == x; distinct elements have distinct encodings.", "quantifier": "every modulus p>=2 and element", "why_tests_cant": "All residues incl. those with leading zero bytes; the length subtraction must never underflow.", "anchors": ["src/primefield/mod.rs: Serialize for FpElt, Deserialize for Fp, size_bytes"]}
{"id": "C11", "title": "Field deserialization is total and reduces modulo p", "statement": "from_bytes_be/le return Ok for every byte string of every length (also empty), and the element is the unsigned integer value of the bytes reduced modulo p; from_bytes_le(b) equals from_bytes_be(reversed b); leading zero bytes are ignored.", "quantifier": "every modulus and every byte string", "why_tests_cant": "Unbounded inputs.", "anchors": ["src/primefield/mod.rs: Deserialize for Fp"]}
{"id": "C12", "title": "Printing and parsing field elements round-trips; numeric literals parse correctly", "statement": "For every integer z, parsing its decimal representation, or its 0x / 0o / 0b prefixed representation with optional leading minus, yields elt(z); in particular parsing what Display printed for x yields x. The empty string yields zero.", "quantifier": "every integer z, every modulus, four radices", "why_tests_cant": "Unbounded literals.", "anchors": ["src/primefield/mod.rs: FromFactory<&str> for Fp, Display for FpElt"]}
{"id": "C13", "title": "Quadratic-extension ring operations", "statement": "Addition, subtraction, multiplication, negation and squaring of Fp2 elements are those of GF(p)[i]/(i^2+1): all commutative-ring laws hold, i*i == -1, operations on elements of one field never panic and on different fields always panic.", "quantifier": "every modulus p>=2 and all elements", "why_tests_cant": "Algebraic laws over all inputs.", "anchors": ["src/quadraticfield/mod.rs: impl Add/Sub/Mul/Neg for Fp2Elt"]}
{"id": "C14", "title": "Quadratic-extension inversion", "statement": "A user expects x * (1u32/x) == one for every nonzero x of GF(p^2), p prime, p%4==3.", "quantifier": "every prime p%4==3 and nonzero element", "why_tests_cant": "Infinitely many fields and elements; there is no test of Fp2 at all.", "anchors": ["src/quadraticfield/mod.rs: Fp2Elt::inv_mod, Div"]}
{"id": "C15", "title": "Quadratic-extension exponentiation and square roots are callable", "statement": "A user expects x ^ &e to return the e-th power and x.sqrt() to return a root when p%4==3.", "quantifier": "every prime, element and exponent", "why_tests_cant": "Every input must be covered.", "anchors": ["src/quadraticfield/mod.rs: BitXor<&BigUint>, BitXor<&BigInt>, Sqrt::sqrt, One::one"]}
{"id": "C16", "title": "Quadratic-extension is_square", "statement": "For prime p%4==3, is_square() on an element x of GF(p^2) returns true exactly when x is the square of an element; a user expects zero to be a square, as in the prime field.", "quantifier": "every prime p%4==3 and element", "why_tests_cant": "Residuosity over every GF(p^2).", "anchors": ["src/quadraticfield/mod.rs: Sqrt::is_square"]}
{"id": "C17", "title": "Quadratic-extension serialization", "statement": "to_bytes_be/le return exactly size_bytes() bytes, the bytes of the real part followed by those of the imaginary part; from_bytes inverts them, accepts every string of that length and reduces each half modulo p, and returns Err for any other length (never panics).", "quantifier": "every modulus p>=2, element and byte string", "why_tests_cant": "All lengths and elements.", "anchors": ["src/quadraticfield/mod.rs: Serialize for Fp2Elt, Deserialize for Fp2"]}
{"id": "C18", "title": "Quadratic-extension sgn0", "statement": "sgn0 returns 1 or -1 on every element; a user expects sgn0(-x) == -sgn0(x) for every nonzero x so that it selects one of the two roots.", "quantifier": "every odd modulus and element", "why_tests_cant": "All pairs of coordinates.", "anchors": ["src/quadraticfield/mod.rs: Sgn0::sgn0"]}
{"id": "C19", "title": "Scalar arithmetic is arithmetic modulo the group order", "statement": "For new_scalar on a curve of order r: sum, difference, product, negation of scalars made from integers a, b are the scalars of a+b, a-b, a*b, -a; scalars are equal exactly when r divides the difference; for prime r>2 division inverts multiplication; scalars of different orders always panic. The three curve families agree.", "quantifier": "every order r>=1 and all integers", "why_tests_cant": "Unbounded integers.", "anchors": ["src/weierstrass/scalar.rs: Scalar::new, red, inv_mod, ops", "src/montgomery/scalar.rs", "src/edwards/scalar.rs"]}
{"id": "C20", "title": "Scalar bit iteration reads the binary expansion", "statement": "iter_rl yields the bits of the scalar from least to most significant and iter_lr the same bits reversed, without panicking or indexing out of range, for every nonzero scalar; their weighted sum is the scalar. A user expects iter_lr to be just empty for the zero scalar.", "quantifier": "every scalar of every bit length below 2^64 bits, both build profiles", "why_tests_cant": "Word-boundary handling and the wrapping index must be right for every length.", "anchors": ["src/weierstrass/scalar.rs: Iterino::next, iter_lr, iter_rl"]}
{"id": "C21", "title": "Scalar serialization", "statement": "to_bytes_be/le return the fixed length ceil(bits(r)/8), never panic, and reading the bytes back as an integer and calling new_scalar gives the same scalar.", "quantifier": "every order r>=1 and scalar", "why_tests_cant": "All scalars incl. short ones.", "anchors": ["src/weierstrass/scalar.rs: Serialize for Scalar"]}
{"id": "C22", "title": "Weierstrass points are validated on construction", "statement": "new_point(x,y) returns a point exactly when y^2 = x^3+ax+b, and panics otherwise; identity() never panics; every point obtained through any history of public operations passes is_on_curve.", "quantifier": "every curve, all coordinate pairs, every finite history of point operations", "why_tests_cant": "Histories and inputs are unbounded.", "anchors": ["src/weierstrass/curve.rs: new_point, new_proy_point, is_on_curve, identity, get_generator", "src/weierstrass/point.rs: ops"]}
{"id": "C23", "title": "Weierstrass addition is the elliptic-curve group law", "statement": "On a nonsingular curve without a rational point of order two, for all points P, Q (equal, opposite, identity included) P+Q, P-Q, -P never panic and return a representative of the group-theoretic sum, difference, negative.", "quantifier": "every prime p>3, every such curve, all pairs of points, all projective representatives", "why_tests_cant": "Completeness of the formulas over all exceptional pairs.", "anchors": ["src/weierstrass/point.rs: core_add, core_neg, impl + -"]}
{"id": "C24", "title": "Weierstrass addition on curves with two-torsion", "statement": "On any nonsingular curve, P+Q is the correct group sum unless P-Q is a point of order exactly two. A user expects it to be correct there too, or to panic.", "quantifier": "every prime p>3, every nonsingular curve, all pairs of points", "why_tests_cant": "Exceptional pairs have negligible density.", "anchors": ["src/weierstrass/point.rs: core_add; src/weierstrass/curve.rs: is_on_curve"]}
{"id": "C25", "title": "Weierstrass scalar multiplication", "statement": "On a curve without two-torsion, P*k (and k*P) returns k times P in the group, for the integer k in 0..r-1 denoted by the scalar; scalars of another order panic. A user expects this for k = 0 as well.", "quantifier": "every such curve, point, scalar, both build profiles", "why_tests_cant": "All scalars.", "anchors": ["src/weierstrass/point.rs: core_mul, core_doubling, impl *", "src/weierstrass/scalar.rs: Mul"]}
{"id": "C26", "title": "Scalar multiplication is a group action", "statement": "If r*P = O then (k1+k2)*P == k1*P + k2*P, (k1*k2)*P == k1*(k2*P), (-k)*P == -(k*P), for all scalars k1, k2 (nonzero representatives, or release profile), and the result does not depend on the integer chosen to make the scalar.", "quantifier": "every curve without two-torsion, point killed by r, all integers k1,k2", "why_tests_cant": "Interplay of reduction mod r with the group law for all scalars.", "anchors": ["src/weierstrass/point.rs: core_mul", "src/weierstrass/scalar.rs: Scalar::new, red"]}
{"id": "C27", "title": "Point equality is equality of points", "statement": "== on Weierstrass points of one curve is true exactly when they represent the same point of the curve (so it is an equivalence relation compatible with +), for all representatives obtained through the API on curves without two-torsion.", "quantifier": "all curves and pairs of representatives", "why_tests_cant": "All projective representatives.", "anchors": ["src/weierstrass/point.rs: PartialEq for Point, is_zero"]}
{"id": "C28", "title": "Weierstrass point encoding round-trips", "statement": "For every point P of a curve with p%4==3 or p%8==5, decode(encode(P,c)) returns a point equal to P, for c = true and false, and the encodings have length size+1 and 2*size+1 (1 for the identity).", "quantifier": "every curve, point (any representative), both formats; where a square root is taken, fields whose square roots the library implements (p = 3 mod 4 or 5 mod 8; C07 says what happens for the others)", "why_tests_cant": "All points, including the identity.", "anchors": ["src/weierstrass/point.rs: Encode", "src/weierstrass/curve.rs: Decode"]}
{"id": "C29", "title": "Weierstrass decoding never fails unsafely", "statement": "decode returns Ok(P) with P on the curve, or Err, on every byte string: it rejects wrong lengths, unknown tags and coordinates >= p, and never panics.", "quantifier": "every byte string of every length; where a square root is taken, fields whose square roots the library implements (p = 3 mod 4 or 5 mod 8; C07 says what happens for the others)", "why_tests_cant": "All malformed inputs.", "anchors": ["src/weierstrass/curve.rs: Decode::decode"]}
{"id": "C30", "title": "Weierstrass encoding is canonical", "statement": "Two equal points have identical encodings whatever their projective representatives; two different non-identity points have different encodings in the same format; decoding is injective per format on curves without two-torsion.", "quantifier": "all points and representatives; where a square root is taken, fields whose square roots the library implements (p = 3 mod 4 or 5 mod 8; C07 says what happens for the others)", "why_tests_cant": "All representatives.", "anchors": ["src/weierstrass/point.rs: Encode, normalize", "src/weierstrass/curve.rs: Decode"]}
{"id": "C31", "title": "Points of different curves never mix", "statement": "Adding or subtracting points whose curves differ in any parameter, and multiplying by a scalar of a different order, always panics, for the three curve families.", "quantifier": "all pairs of curves, points, scalars", "why_tests_cant": "All pairs.", "anchors": ["src/weierstrass/point.rs", "src/montgomery/point.rs", "src/edwards/point.rs: impl_op_ex!(+), (*)"]}
{"id": "C32", "title": "Montgomery addition is the group law", "statement": "On a nonsingular Montgomery curve by^2=x^3+ax^2+x whose constant s is not the y-coordinate of a point, P+Q, P-Q, -P never panic and return the group sum, difference, negative for all points; a user expects this for every b.", "quantifier": "every prime p>2, such curve, all pairs of points and representatives", "why_tests_cant": "Completeness over exceptional pairs and all parameters.", "anchors": ["src/montgomery/point.rs: core_add, core_neg", "src/montgomery/curve.rs: Curve.s, is_on_curve"]}
{"id": "C33", "title": "Montgomery scalar multiplication", "statement": "P*k returns k times P in the group for every point and scalar (zero: see bit iteration).", "quantifier": "every such curve, point, scalar", "why_tests_cant": "All scalars.", "anchors": ["src/montgomery/point.rs: core_mul"]}
{"id": "C34", "title": "Montgomery point encoding round-trips", "statement": "decode(encode(P,c)) == P for every point, both formats, and different points have different encodings.", "quantifier": "every curve with b=1, point, representative; where a square root is taken, fields whose square roots the library implements (p = 3 mod 4 or 5 mod 8; C07 says what happens for the others)", "why_tests_cant": "All points incl. identity and (0,0).", "anchors": ["src/montgomery/point.rs: Encode", "src/montgomery/curve.rs: Decode"]}
{"id": "C35", "title": "Montgomery decoding never fails unsafely", "statement": "decode returns Ok(P) with P on the curve, or Err, on every byte string and never panics.", "quantifier": "every byte string; where a square root is taken, fields whose square roots the library implements (p = 3 mod 4 or 5 mod 8; C07 says what happens for the others)", "why_tests_cant": "All malformed inputs.", "anchors": ["src/montgomery/curve.rs: Decode::decode"]}
{"id": "C36", "title": "Edwards addition is complete and a group law", "statement": "On a twisted Edwards curve with a a nonzero square and d a non-square, P+Q never panics, has nonzero Z, equals the affine Edwards sum for all points, and + - neg identity satisfy the abelian group laws up to ==.", "quantifier": "every odd prime p, such curve, all points (triples for associativity) and representatives", "why_tests_cant": "Completeness and associativity over all points.", "anchors": ["src/edwards/point.rs: core_add, core_neg, PartialEq", "src/edwards/curve.rs: is_on_curve, identity"]}
{"id": "C37", "title": "Edwards scalar multiplication", "statement": "P*k returns k times P in the Edwards group for every point and scalar (zero: see bit iteration).", "quantifier": "every such curve, point, scalar", "why_tests_cant": "All scalars.", "anchors": ["src/edwards/point.rs: core_mul"]}
{"id": "C38", "title": "Edwards is_zero recognises the identity", "statement": "is_zero() on an Edwards point returns true exactly when the point equals identity().", "quantifier": "every curve and point", "why_tests_cant": "One exceptional point in the whole group.", "anchors": ["src/edwards/point.rs: is_zero"]}
{"id": "C39", "title": "Edwards point encoding round-trips and is canonical", "statement": "For every point P (identity included) of a complete Edwards curve with p%4==3 or p%8==5, decode(encode(P)) == P, the encoding has ceil((bits(p)+1)/8) bytes, is independent of representative, and is injective; encode never panics.", "quantifier": "every such curve, point, representative; where a square root is taken, fields whose square roots the library implements (p = 3 mod 4 or 5 mod 8; C07 says what happens for the others)", "why_tests_cant": "All points, bit-length classes of p.", "anchors": ["src/edwards/point.rs: Encode", "src/edwards/curve.rs: Decode"]}
{"id": "C40", "title": "Edwards decoding never fails unsafely", "statement": "decode returns Ok(P) with P on the curve, or Err, on every byte string and never panics; y >= p and wrong lengths are rejected with Err.", "quantifier": "every byte string; where a square root is taken, fields whose square roots the library implements (p = 3 mod 4 or 5 mod 8; C07 says what happens for the others)", "why_tests_cant": "All malformed inputs.", "anchors": ["src/edwards/curve.rs: Decode::decode"]}
{"id": "C41", "title": "Simplified SWU map is total and lands on the curve", "statement": "If SSWU::new(e,z) succeeds, then map(u) never panics for any field element u, returns a point on e, with sgn0(y) == sgn0(u) unless y = 0; SSWU::new succeeds exactly when A,B are nonzero, z is a non-square, z != -1 and g(B/(zA)) is a square.", "quantifier": "every prime p%4==3 or 5 mod 8 (p>3), curve, z and u", "why_tests_cant": "Exceptional u have negligible density.", "anchors": ["src/weierstrass/sswu.rs: SSWU::new, verify, map"]}
{"id": "C42", "title": "Shallue-van de Woestijne map is total and lands on the curve", "statement": "If SVDW::new(e,z) succeeds, then map(u) never panics for any u and returns a point on e with sgn0(y) == sgn0(u) unless y = 0.", "quantifier": "every prime p%4==3 or 5 mod 8 (p>3), curve, z and u", "why_tests_cant": "Exceptional u have negligible density.", "anchors": ["src/weierstrass/svdw.rs: SVDW::new, verify, map"]}
{"id": "C43", "title": "Elligator 2 map to Montgomery curves is total", "statement": "If Ell2::new(e,z) succeeds and z is a non-square, map(u) never panics and returns a point on e for every u; a user expects this for every nonzero b.", "quantifier": "every prime, curve, non-square z and u; where a square root is taken, fields whose square roots the library implements (p = 3 mod 4 or 5 mod 8; C07 says what happens for the others)", "why_tests_cant": "Exceptional u and parameters.", "anchors": ["src/montgomery/elligator2.rs: Ell2::new, map"]}
{"id": "C44", "title": "Elligator 2 map to Edwards25519 and Edwards448", "statement": "With the library's rational maps, map(u) on EDWARDS25519 (z=2) and EDWARDS448 (z=-1) never panics and returns a proper point of the curve for every u.", "quantifier": "all u in GF(2^255-19), GF(2^448-2^224-1)", "why_tests_cant": "Exceptional u among 2^255 or 2^448.", "anchors": ["src/edwards/elligator2.rs", "src/instances/rational_maps.rs: pull"]}
{"id": "C45", "title": "secp256k1 isogeny and SSWUAB0", "statement": "get_isogeny_secp256k1().push maps every point of SECP256K1_3ISO to a point of SECP256K1 without panicking, and SSWUAB0 built on it (z=-11) maps every u to a point of SECP256K1.", "quantifier": "all points, all representatives, all u", "why_tests_cant": "2^256 inputs.", "anchors": ["src/instances/rational_maps.rs: Isosecp256k1::push", "src/weierstrass/sswuab0.rs"]}
{"id": "C46", "title": "BLS12-381 isogeny and SSWUAB0", "statement": "get_isogeny_bls12381g1().push maps every point of BLS12381G1_11ISO to a point of BLS12381G1 without panicking, and SSWUAB0 built on it (z=11) maps every u to a point of BLS12381G1.", "quantifier": "all points, all u", "why_tests_cant": "2^381 inputs; the isogeny kernel has ten rational points.", "anchors": ["src/instances/rational_maps.rs: IsoBls12381G1::push", "src/weierstrass/sswuab0.rs"]}
{"id": "C47", "title": "edwards25519 <-> curve25519 birational map", "statement": "push and pull never panic on any point of their domain, pull(push(P)) == P and push(pull(Q)) == Q for all points, and both are group homomorphisms.", "quantifier": "all points and representatives", "why_tests_cant": "A handful of exceptional points in a group of size 2^255.", "anchors": ["src/instances/rational_maps.rs: Ed2Mt25519::push, pull"]}
{"id": "C48", "title": "edwards448 -> curve448 4-isogeny", "statement": "push and pull never panic and return proper points of the target curve for all points of their domain; pull after push is multiplication by four.", "quantifier": "all points and representatives", "why_tests_cant": "Exceptional points in a group of size 2^448.", "anchors": ["src/instances/rational_maps.rs: Ed4isoMt448::push, pull"]}
{"id": "C49", "title": "Built-in curve parameters are valid", "statement": "For each of the eleven named curves: p and r are prime, the curve is nonsingular, its addition formulas are complete on it, the generator is on the curve and has order exactly get_order().", "quantifier": "all eleven instances; for each, all points for completeness", "why_tests_cant": "Primality, orders and completeness quantify over numbers/points beyond enumeration.", "anchors": ["src/instances/weier.rs", "src/instances/mont.rs", "src/instances/edw.rs"]}
{"id": "C50", "title": "On the prime-order instances the order annihilates every point", "statement": "For P256, P384, P521, SECP256K1 and SECP256K1_3ISO the number of points is exactly get_order(), so every point times any integer depends only on the integer modulo get_order(), and every non-identity point generates the group.", "quantifier": "all points of five curves", "why_tests_cant": "2^256 and more points.", "anchors": ["src/instances/weier.rs"]}
{"id": "C51", "title": "Multiples of the generator are distinct", "statement": "On every named curve, k1*G == k2*G exactly when get_order() divides k1-k2.", "quantifier": "all integers k1,k2 (release profile, or not multiples of the order)", "why_tests_cant": "All pairs of scalars.", "anchors": ["src/instances/weier.rs", "src/instances/mont.rs", "src/instances/edw.rs"]}
{"id": "C52", "title": "Any history of point operations computes the group expression", "statement": "On every named curve, evaluating any expression built from identity, generator, valid new_point, +, binary and unary -, * by scalars never panics (release profile) and yields the value of the same expression in the abstract group.", "quantifier": "all finite expressions (histories), all points, all scalars", "why_tests_cant": "Histories are unbounded.", "anchors": ["src/weierstrass/point.rs", "src/montgomery/point.rs", "src/edwards/point.rs"]}
{"id": "C53", "title": "Montgomery points are validated and stay on the curve", "statement": "new_point succeeds exactly on the solutions of b y^2 = x^3+a x^2+x; whatever sequence of API operations a caller performs, for any b and s, the result has reduced coordinates, satisfies the projective curve equation and passes is_on_curve.", "quantifier": "every prime, curve, coordinates and operation history", "why_tests_cant": "Histories are unbounded.", "anchors": ["src/montgomery/point.rs", "src/montgomery/curve.rs"]}
{"id": "C54", "title": "Edwards points are validated and stay on the curve", "statement": "new_point succeeds exactly on the solutions of a x^2+y^2 = 1+d x^2 y^2; whatever sequence of API operations a caller performs the result has reduced coordinates, satisfies the curve equation and the extended-coordinate relation and passes is_on_curve.", "quantifier": "every prime, curve, coordinates and operation history", "why_tests_cant": "Histories are unbounded.", "anchors": ["src/edwards/point.rs", "src/edwards/curve.rs"]}
{"id": "C55", "title": "Built-in parameters are the published ones", "statement": "The field size, coefficients, order, cofactor and base point of each named curve are those of its standard (NIST SP 800-186, SEC 2, RFC 7748, RFC 8032, RFC 9380).", "quantifier": "the eleven named curves", "why_tests_cant": "A test using the same constants cannot notice a wrong digit; here they are compared with independent closed forms.", "anchors": ["src/instances/weier.rs", "src/instances/mont.rs", "src/instances/edw.rs"]}
{"id": "C56", "title": "Quadratic field: division and predicates", "statement": "In GF(p^2), (x/y)*y == x for every x and every nonzero y; is_zero, is_one, set_zero, set_one and cmov do what their names say.", "quantifier": "every prime p = 3 mod 4, all elements", "why_tests_cant": "All pairs of elements of a field of size p^2.", "anchors": ["src/quadraticfield/mod.rs: Div, is_zero, is_one, set_zero, set_one, cmov"]}
{"id": "C57", "title": "Quadratic field: text form", "statement": "from(\"a,b\") is a+bi for any two integer literals (C62); every other string is refused with a panic; the text printed for an element parses back to it.", "quantifier": "every modulus, all literals, all elements", "why_tests_cant": "Infinitely many strings and elements.", "anchors": ["src/quadraticfield/mod.rs: From<&str>, Display"]}
{"id": "C58", "title": "Multiplying by the cofactor lands in the prime-order subgroup", "statement": "On every named curve, for every point P, P * new_scalar(get_cofactor()) is a multiple of the generator.", "quantifier": "all points of the eleven named curves, both build profiles", "why_tests_cant": "Exceptional points form a subgroup that random tests miss with probability close to one.", "anchors": ["src/instances/weier.rs", "src/instances/mont.rs", "src/instances/edw.rs", "src/weierstrass/curve.rs: get_cofactor", "src/montgomery/curve.rs: get_cofactor", "src/edwards/curve.rs: get_cofactor"]}
{"id": "C59", "title": "Order times cofactor is the number of points", "statement": "On every named curve the number of points of the curve is get_order() * get_cofactor().", "quantifier": "all points of the eleven named curves", "why_tests_cant": "Counting 2^255 or more points.", "anchors": ["src/instances/weier.rs", "src/instances/mont.rs", "src/instances/edw.rs"]}
{"id": "C60", "title": "Operands and constants the field API refuses", "statement": "x^k for a u32 k panics unless k is 2, when it is x*x; x^k for an i32 k panics unless k is -1, when it is the inverse; k/x for a u32 k panics unless k is 1, when it is the inverse used by division; the context-free Zero::zero() and One::one() of field elements always panic.", "quantifier": "every modulus, element and 32-bit literal", "why_tests_cant": "There are 2^32 literals for each element of each field.", "anchors": ["src/primefield/mod.rs", "src/ops.rs"]}
{"id": "C61", "title": "Field accessors and constants", "statement": "get_modulus and size_bytes (the least number of bytes that holds the modulus bits) describe the field; elt and from map every integer to its residue (with imaginary part zero in the quadratic field); zero() and one() are neutral; is_zero, is_one, set_zero, set_one and cmov agree with the represented value; two fields are == exactly when their moduli are equal.", "quantifier": "every modulus and element, prime and quadratic fields", "why_tests_cant": "All moduli and elements.", "anchors": ["src/primefield/mod.rs", "src/quadraticfield/mod.rs", "src/field.rs"]}
{"id": "C62", "title": "Exactly which strings are accepted as field literals", "statement": "The parser of field literals accepts exactly the strings consisting of an optional minus, an optional base prefix (0x, 0o, 0b), an optional inner sign and then digits of the base with underscores after the first; the value is the one positional notation gives; every other string panics.", "quantifier": "all strings", "why_tests_cant": "There are infinitely many strings.", "anchors": ["src/primefield/mod.rs: From<&str>", "src/ops.rs: FromFactory"]}
{"id": "C63", "title": "Text form of scalars", "statement": "A scalar prints as the decimal digits of its value reduced modulo the order; parsing the text gives the scalar back; two scalars of one ring print alike exactly when they are equal.", "quantifier": "all moduli and scalars", "why_tests_cant": "All scalars.", "anchors": ["src/macros/mod.rs", "src/weierstrass/scalar.rs", "src/montgomery/scalar.rs", "src/edwards/scalar.rs"]}
{"id": "C64", "title": "Text form of fields, curves, points and curve names", "statement": "The printed text of a field, curve, point or curve identifier is the documented one, character by character: a headline or the name, then each coefficient or stored coordinate under its letter, in decimal. Equal values print alike and different values print differently.", "quantifier": "all fields, curves and points of the three families; the eleven names", "why_tests_cant": "All pairs of values.", "anchors": ["src/weierstrass/curve.rs: Display", "src/weierstrass/point.rs: Display", "src/montgomery/point.rs: Display", "src/edwards/point.rs: Display", "src/instances/mod.rs"]}
{"id": "C65", "title": "Hashing to the named curves", "statement": "With the Z constants of RFC 9380, the maps to P256, P384, P521, SECP256K1, BLS12381G1, CURVE25519, CURVE448, EDWARDS25519 and EDWARDS448 are created without panic; every field element is mapped to the prescribed point; mapping two elements, adding and multiplying by get_cofactor() never panics and gives a multiple of the generator.", "quantifier": "all pairs of field elements, both build profiles", "why_tests_cant": "2^512 and more pairs of inputs.", "anchors": ["src/weierstrass/sswu.rs", "src/weierstrass/svdw.rs", "src/weierstrass/sswuab0.rs", "src/montgomery/elligator2.rs", "src/edwards/elligator2.rs", "src/instances"]}
{"id": "C66", "title": "Serialisation on the named curves", "statement": "On every named curve each point encodes to the standard number of bytes (SEC 1: n+1 or 2n+1; RFC 8032: 32 or 57), decodes back to an equal point, different points have different encodings, and every string that decodes is the encoding of the point it decodes to.", "quantifier": "all points, formats and byte strings on the eleven curves", "why_tests_cant": "All points and all byte strings.", "anchors": ["src/weierstrass/point.rs: encode", "src/weierstrass/curve.rs: decode", "src/montgomery/point.rs: encode", "src/montgomery/curve.rs: decode", "src/edwards/point.rs: encode", "src/edwards/curve.rs: decode"]}
{"id": "C67", "title": "The isogenies are homomorphisms", "statement": "The maps described by get_isogeny_secp256k1() and get_isogeny_bls12381g1() respect addition and multiplication by scalars: pushing P + Q gives a point == to push(P) + push(Q), and pushing P * k one == to push(P) * k, and the map on points is a group homomorphism; the first is one to one and onto, the second has a kernel of eleven points.", "quantifier": "all points, pairs of points and scalars, both build profiles", "why_tests_cant": "Pairs of 2^256 or 2^381 points.", "anchors": ["src/instances/rational_maps.rs: get_isogeny_secp256k1, get_isogeny_bls12381g1", "src/weierstrass/point.rs"]}
{"id": "C68", "title": "Number of points of the BLS12-381 curves and clearing on the isogenous one", "statement": "BLS12381G1_11ISO and BLS12381G1 have the same number of points, (1-x)^2/3 times get_order() with x the BLS parameter; on BLS12381G1_11ISO multiplying any point by eleven times get_cofactor() gives a multiple of the generator.", "quantifier": "all points, both build profiles", "why_tests_cant": "Counting 2^381 points; points of order 121 are missed by random tests.", "anchors": ["src/instances/weier.rs: BLS12381G1, BLS12381G1_11ISO", "src/weierstrass/curve.rs: get_cofactor"]}
{"id": "C69", "title": "The 4-isogeny between edwards448 and curve448 is a homomorphism and pull is its dual", "statement": "For the map of edwards448_to_curve448(): push(P + Q) == push(P) + push(Q) and push(P * k) == push(P) * k, the same for pull, pull after push and push after pull are multiplication by four, and the kernels have two and four points.", "quantifier": "all points, pairs of points and scalars, both build profiles", "why_tests_cant": "Pairs of 2^448 points.", "anchors": ["src/instances/rational_maps.rs: edwards448_to_curve448", "src/edwards/point.rs", "src/montgomery/point.rs"]}
{"id": "C70", "title": "Collisions and image of the Elligator 2 map on Montgomery curves", "statement": "Two field elements are mapped to equal points exactly when they agree up to sign or are both exceptional (u = 0 or 1 + Z u^2 = 0); the identity is never hit, and the set of points hit is described exactly. On CURVE25519 (Z = 2) the images of u and v are == exactly when u = v or u = -v and 2^254 - 9 points are hit; on CURVE448 (Z = -1) 2^447 - 2^223 - 1 points.", "quantifier": "all Montgomery curves with B = 1, all Z, all pairs of field elements", "why_tests_cant": "A collision is a statement about 2^510 pairs of inputs and the image about 2^255 points.", "anchors": ["src/montgomery/elligator2.rs", "src/instances/mont.rs: CURVE25519, CURVE448"]}
{"id": "C71", "title": "Number of preimages of the Weierstrass maps", "statement": "No point has many preimages: the simplified SWU map hits each point that is not of order two from at most 6 field elements (4 except on one x) and a point of order two from at most 7 (4 except on one x), the Shallue-van de Woestijne map from at most 8 (6 except on two x) and from at most 12 (8 except on two x) at order two, the isogeny-based map to SECP256K1 from at most 6 and to BLS12381G1 from at most 66; the identity is never hit by the direct maps.", "quantifier": "all valid curves, all Z the constructors accept, all points; where a square root is taken, fields whose square roots the library implements (p = 3 mod 4 or 5 mod 8; C07 says what happens for the others)", "why_tests_cant": "Counting preimages needs all 2^256 or more inputs.", "anchors": ["src/weierstrass/sswu.rs", "src/weierstrass/svdw.rs", "src/weierstrass/sswuab0.rs", "src/instances/rational_maps.rs"]}
{"id": "C72", "title": "== on points is an equivalence that no operation sees through", "statement": "For points of any curves == never panics; points of different curves are different; on one curve == is reflexive, symmetric and transitive, and equal points give equal results under +, binary and unary -, and *, the same is_zero and the same encoding.", "quantifier": "all pairs and triples of points and representatives, all curves of the three families, both build profiles; where a square root is taken, fields whose square roots the library implements (p = 3 mod 4 or 5 mod 8; C07 says what happens for the others)", "why_tests_cant": "All representatives of all points of all curves.", "anchors": ["src/weierstrass/point.rs: PartialEq", "src/montgomery/point.rs: PartialEq", "src/edwards/point.rs: PartialEq"]}
{"id": "C73", "title": "Build profiles agree", "statement": "A computation with points has the same outcome (the same point or the same panic) in debug and release builds.", "quantifier": "all expressions over identity, generator, new_point, +, -, *; all curves, valid or not; all point and scalar values", "why_tests_cant": "Tests run in one profile on chosen scalars.", "anchors": ["src/weierstrass/scalar.rs: iter_lr", "src/montgomery/scalar.rs: iter_lr", "src/edwards/scalar.rs: iter_lr"]}
{"id": "C74", "title": "The bit iterators call by call", "statement": "The n-th call of next on iter_rl returns bit n of the scalar and on iter_lr bit (length - 1 - n); after the last bit every further call returns None.", "quantifier": "all scalars, all numbers of calls, both build profiles", "why_tests_cant": "The number of calls and the scalar are unbounded; the iterator keeps a wrapped index after the end.", "anchors": ["src/weierstrass/scalar.rs: Iterino, iter_lr, iter_rl", "src/montgomery/scalar.rs", "src/edwards/scalar.rs"]}
{"id": "C75", "title": "Curves built from user parameters", "statement": "Curve::from(&Params) accepts exactly the strings that are numbers, the curve has exactly the given field, coefficients, order, cofactor and generator, and parameters that do not describe a curve with a generator of the given order are rejected.", "quantifier": "all parameter structures (all strings) of the three families", "why_tests_cant": "The strings and the numbers are unbounded.", "anchors": ["src/weierstrass/curve.rs: From<&Params>", "src/montgomery/curve.rs: From<&Params>", "src/edwards/curve.rs: From<&Params>"]}
{"id": "C76", "title": "Fibres of Elligator 2 on the Edwards curves", "statement": "On EDWARDS25519 with Z = 2, map(u) == map(v) exactly when u = v or u = -v, and there are 2^254 - 9 images; on EDWARDS448 with Z = -1 at most eight field elements have any one point as image.", "quantifier": "all pairs of field elements; all points; where a square root is taken, fields whose square roots the library implements (p = 3 mod 4 or 5 mod 8; C07 says what happens for the others)", "why_tests_cant": "About 2^255 and 2^448 inputs; collisions of a hash to curve cannot be found by sampling.", "anchors": ["src/edwards/elligator2.rs: Ell2::map", "src/montgomery/elligator2.rs: Ell2::map", "src/instances/rational_maps.rs: edwards25519_to_curve25519, edwards448_to_curve448"]}
{"id": "C77", "title": "Key agreement over encoded points", "statement": "Two parties multiply the generator by their secrets, send the encodings, decode what they receive, multiply by their own secret and encode the result. Both get the same bytes, namely the encoding of G * (a b), and nothing panics, compressed or not, on every curve with valid parameters.", "quantifier": "all pairs of secrets that are not multiples of the order; compressed or uncompressed messages and results; both build profiles; all valid curves of the three families; where a square root is taken, fields whose square roots the library implements (p = 3 mod 4 or 5 mod 8; C07 says what happens for the others)", "why_tests_cant": "About 2^500 pairs of secrets for every curve; agreement relies on the group law, scalar arithmetic, both codecs and normalisation all being right together.", "anchors": ["src/weierstrass/curve.rs: ScMulti, decode", "src/weierstrass/point.rs: Mul<&Scalar>, encode", "src/montgomery/point.rs", "src/edwards/point.rs", "src/ecscalar.rs: Mul"]}
{"id": "C78", "title": "Verification equation of Schnorr signatures", "statement": "For a secret x, nonce k and challenge m, the check G * s == G * k + (G * x) * m accepts exactly the responses s congruent to k + m x modulo the order, and accepts the response computed with the scalar operations.", "quantifier": "all integers x, k, m, s; both build profiles; all valid curves of the three families", "why_tests_cant": "Rejecting every wrong response is a statement about all of them.", "anchors": ["src/weierstrass/point.rs", "src/montgomery/point.rs", "src/edwards/point.rs", "src/ecscalar.rs: Add, Mul"]}
{"id": "C79", "title": "Verification equation of ECDSA", "statement": "With s = (z + t x) / k computed by the scalar operations, G * (z / s) + (G * x) * (t / s) equals G * k; and with any other s that is not zero modulo the order in its place the comparison accepts exactly if s k = z + t x modulo the order.", "quantifier": "all integers x, k, z, t with k and z + t x not divisible by the order, and all claimed s not divisible by the order; both build profiles; all valid curves of odd order of the three families", "why_tests_cant": "Correctness of signature verification for all keys, nonces and messages.", "anchors": ["src/weierstrass/point.rs", "src/montgomery/point.rs", "src/edwards/point.rs", "src/ecscalar.rs: Add, Mul, Div"]}
{"id": "C80", "title": "Points reached by sums of two Elligator 2 images on the 448-bit curves", "statement": "On CURVE448 with Z = -1 every point is the sum of the images of two field elements other than 0, 1 and -1, and mapping two elements, adding and clearing the cofactor reaches every multiple of the generator. On EDWARDS448 with Z = -1 the image of every field element other than 0, 1 and -1 is already a multiple of the generator, and every multiple of the generator is the sum of two such images.", "quantifier": "all points of CURVE448; all integers n; all field elements; both build profiles", "why_tests_cant": "That every point is reached is a statement about about 2^448 points; no sample can settle it.", "anchors": ["src/montgomery/elligator2.rs: Ell2::map", "src/edwards/elligator2.rs: Ell2::map", "src/montgomery/point.rs: Add, Mul", "src/edwards/point.rs: Add", "src/instances/rational_maps.rs: edwards448_to_curve448"]}
{"id": "C81", "title": "Memory of a field is given back", "statement": "The memory allocated by Fp::new is kept while the program owns a value that refers to the field, and is freed when the last such value (field, element, curve, point, map) is dropped.", "quantifier": "all histories of clones, drops and square roots; all moduli", "why_tests_cant": "A leak depends on the whole history of the program; a test sees one.", "anchors": ["src/primefield/mod.rs: Fp, Params, SqrtPrecmp::P5MOD8, get_sqrt_precmp"]}
{"id": "C82", "title": "Maps through another curve check their arguments", "statement": "SSWUAB0::new(e, z, iso) succeeds exactly when e is the codomain of the isogeny, exactly one coefficient of e is zero and (domain, z) are valid for SSWU::new, and panics with \"wrong input parameters\" otherwise; edwards::Ell2::new(e, z, r) panics without a rational map, panics if e is not its domain, and otherwise accepts what montgomery::Ell2::new accepts on the codomain. The resulting maps are the inner map followed by push, respectively pull.", "quantifier": "all curves, all z, all implementations of the Isogeny and RationalMap traits whose accessors return", "why_tests_cant": "The maps are trait objects that a user can implement; the cases range over all curves and parameters.", "anchors": ["src/weierstrass/sswuab0.rs: SSWUAB0::new, verify, map", "src/edwards/elligator2.rs: Ell2::new, map"]}
{"id": "C83", "title": "At which points scalar arithmetic carries over", "statement": "P * (k + l) == P * k + P * l, P * (k * l) == (P * l) * k and P * (-k) == -(P * k) hold for all scalars exactly at the points P killed by get_order(), so at every point of P-256, P-384, P-521, secp256k1 and its isogenous curve, but not at every point of a curve with a cofactor. The answer is given for every point and pair of scalars; at the points of order two of the Montgomery and Edwards curves the negation law never holds for a nonzero scalar.", "quantifier": "all valid curves of the three families, all points, all integers k, l; both build profiles, with zero scalars excluded in debug builds (they panic, C25, C33, C37)", "why_tests_cant": "Points outside the subgroup of the generator are rare in tests, and the laws fail only for scalars whose sum or product exceeds the order.", "anchors": ["src/ops.rs: ScMulRef", "src/weierstrass/point.rs: Mul", "src/montgomery/point.rs: Mul", "src/edwards/point.rs: Mul", "src/weierstrass/scalar.rs: Scalar"]}
{"id": "C84", "title": "Every value obtained through the API is well formed", "statement": "Whatever finite sequence of public calls produced it, every value a user holds is well formed: field and quadratic-field elements are reduced in their field, scalars lie in [0, r), curve constants are reduced elements of the curve's field, and every point has reduced coordinates in its curve's field and satisfies the curve equation. The only exceptions to the last clause are direct results of normalize on a point at infinity, or over a modulus that is not an odd prime. On all values, printing, comparing a value with itself and encoding it in either form return, and the encoded length depends on the modulus only.", "quantifier": "all finite histories of calls to the public functions of prime fields, quadratic fields, scalars, the three curve families, the maps to curves, isogenies and rational maps, over any number of curves and any moduli >= 2, prime or not, in both build profiles", "why_tests_cant": "The invariant is over unbounded histories that mix all parts of the library, including user-supplied curve parameters that are not validated.", "anchors": ["src/primefield/mod.rs: Fp, FpElt", "src/quadraticfield/mod.rs: Fp2, Fp2Elt", "src/weierstrass: Curve, Point, Scalar, SSWU, SVDW, SSWUAB0", "src/montgomery: Curve, Point, Scalar, Ell2", "src/edwards: Curve, Point, Scalar, Ell2", "src/instances: isogenies and rational maps"]}
{"id": "C85", "title": "Edwards arithmetic on curves that are not complete", "statement": "On an Edwards curve with any coefficients, point addition, subtraction, negation and multiplication by a scalar never panic on values that are on the curve and return values on the curve. Adding two affine points gives their Edwards sum, which compares equal with that sum only.", "quantifier": "every odd prime, all coefficients a and d (square or not, zero or not), all pairs of points and all representatives, all scalars, both build profiles", "why_tests_cant": "The exceptional pairs are a vanishing fraction of all pairs and exist only on curves no test uses.", "anchors": ["src/edwards/point.rs: core_add, core_neg, core_mul, PartialEq", "src/edwards/curve.rs: new_proy_point, is_on_curve"]}
{"id": "C86", "title": "Blinded evaluation", "statement": "A client multiplies a point P by a secret blind k and sends the encoding; a server decodes it, multiplies by its key s and sends the encoding back; the client decodes and multiplies by 1/k. Nothing panics and the bytes of the result are those of P*s whatever the blind and whatever the choices of compression. The blinded point says nothing about P: for two nonzero multiples of the generator every blinding of the first is a blinding of the second, for exactly one blind modulo the order.", "quantifier": "every curve of the three families that passes the validity conditions of C49 and whose prime has the square root the library supports, all points other than the identity that the order kills, every representative, all blinds, keys and compression choices, both build profiles", "why_tests_cant": "A run fixes one point, one blind and one key; that the blind cancels for every choice, and the hiding statement, quantify over all of them.", "anchors": ["src/weierstrass/point.rs: Mul, Encode", "src/weierstrass/curve.rs: Decode", "src/weierstrass/scalar.rs: Div for u32", "src/montgomery/point.rs", "src/edwards/point.rs", "src/montgomery/curve.rs", "src/edwards/curve.rs"]}
{"id": "C87", "title": "Checking that two public keys have one discrete logarithm", "statement": "With keys X = G*x, Z = P*y and commitments K = G*k, L = P*l, the checks G*s == K + X*m and P*s == L + Z*m both succeed exactly when s is congruent modulo the order to k + m x and to l + m y. The honest response computed with the scalar operations is accepted; accepted responses to two different challenges for the same commitments imply that x and y are congruent.", "quantifier": "every curve of the three families that passes the validity conditions of C49, all points P other than the identity that the order kills, every representative, all keys, nonces, challenges and responses that are nonzero modulo the order, and in release builds all of them", "why_tests_cant": "Soundness is a statement about all transcripts; no test can enumerate keys, commitments and pairs of challenges.", "anchors": ["src/weierstrass/point.rs: Mul, Add, PartialEq", "src/montgomery/point.rs: Mul, Add, PartialEq", "src/edwards/point.rs: Mul, Add, PartialEq", "src/weierstrass/scalar.rs: Add, Mul"]}
{"id": "C88", "title": "Division when the modulus or the order is not prime", "statement": "Fp::new and the curve constructors accept any modulus and any order. For a modulus n >= 2, (1u32/b)*b == one for every nonzero b exactly if n is prime; a single b gets the right inverse exactly if b^(n-1) = 1 modulo n, and if some invertible b does not, at most half of the invertible elements do. The same equivalence holds for scalars and the group order. With modulus or order one, division panics; with any other it returns.", "quantifier": "all moduli and orders, prime or not, and all elements and scalars", "why_tests_cant": "The claim ranges over all moduli; for Carmichael numbers even testing all invertible elements finds no error.", "anchors": ["src/primefield/mod.rs: inv_mod, Div, BitXor<&BigInt>", "src/weierstrass/scalar.rs: inv_mod, Div"]}
{"id": "C89", "title": "Group operations performed by a multiplication", "statement": "P * k calls, for each binary digit of k from the most significant one, one doubling, followed by one addition of P if the digit is one, and no other group operation: as many doublings as k has digits and as many additions as it has ones, at most twice the number of digits of the order together. The sequence of operations therefore determines the scalar (the code says that it does not run in constant time).", "quantifier": "every curve of the three families, every point and every scalar of fewer than 2^64 digits for which the multiplication returns, both build profiles", "why_tests_cant": "Counts and order of operations for all scalars; tests observe only results.", "anchors": ["src/weierstrass/point.rs: core_mul", "src/montgomery/point.rs: core_mul", "src/edwards/point.rs: core_mul", "src/weierstrass/scalar.rs: iter_lr"]}
{"id": "C90", "title": "Normalised points", "statement": "normalize of any representative of a point other than the point at infinity returns exactly its affine coordinates with z = 1 (and t = x y on Edwards curves), a value that is == to the argument and that normalize does not change. Two points are == exactly if their normalised values are identical in every stored coordinate, and exactly then the normalised values print alike.", "quantifier": "all curves with nonzero discriminant, all Montgomery curves and all complete Edwards curves over any odd prime field; all points and pairs of points other than those at infinity; all representatives", "why_tests_cant": "Every point has p-1 representatives.", "anchors": ["src/weierstrass/point.rs: normalize", "src/montgomery/point.rs: normalize", "src/edwards/point.rs: normalize"]}
{"id": "C91", "title": "The square-root cache of the quadratic field is invisible", "statement": "The lazily filled cache of an Fp2 never changes a result: in every single-threaded history of sqrt calls on clones of a quadratic field, each call gives what a call on a fresh field would give, including the panic for moduli that are not 3 modulo 4, and a call that panicked leaves the field usable. A user would also expect this of concurrent calls from several threads.", "quantifier": "every history of sqrt calls, including ones that panic, on every quadratic field; every interleaving of any number of threads", "why_tests_cant": "Histories and interleavings are unbounded.", "anchors": ["src/quadraticfield/mod.rs: Fp2::get_sqrt_precmp, Fp2::calc_sqrt_precmp, Sqrt for Fp2Elt"]}
{"id": "C92", "title": "is_two_torsion recognises the points of order two", "statement": "On a Montgomery curve p.is_two_torsion() is true exactly for the points of order two, whichever representative of the point is asked.", "quantifier": "all Montgomery curves with b = 1 over odd prime fields, all points and representatives", "why_tests_cant": "Every point has p-1 representatives; tests ask normalised points.", "anchors": ["src/montgomery/point.rs: is_two_torsion, normalize"]}
{"id": "C93", "title": "The square test and square roots when the modulus is not prime", "statement": "Fp::new accepts any modulus. For a modulus n >= 2 is_square never panics, and its answer is right for every element exactly if n is prime or n = 4. For a modulus that is 3 modulo 4 sqrt never panics, and it returns a square root of every element that has one exactly if b^n = b modulo n for every integer b, that is, if n is prime or a Carmichael number.", "quantifier": "all moduli, prime or not, and all elements", "why_tests_cant": "The claim ranges over all moduli; for Carmichael numbers no test of sqrt alone finds the modulus out.", "anchors": ["src/primefield/mod.rs: Sqrt::is_square, Sqrt::sqrt, calc_sqrt_precmp"]}
{"id": "C94", "title": "Every returned point has passed the curve check", "statement": "Whatever the arguments are - composite moduli, singular curves, coordinates of any field, points that are not on the curve (normalize makes one of the identity), any byte string, any scalar, any u - a point returned by new_point, identity, get_generator, decode, unary minus, +, -, *, the maps SSWU, SVDW, SSWUAB0 and Elligator 2, or push/pull of the library's isogenies and rational maps is a point object of the expected curve (that of the left operand, of the constructor of the map, or of the codomain) and passes that curve's is_on_curve. For every modulus n > 0, is_on_curve answers whether the coordinates satisfy the projective curve equation modulo n.", "quantifier": "all curve values, all arguments without any restriction, both build profiles", "why_tests_cant": "No hypothesis restricts the inputs, so no finite set of them settles it; the invalid ones are exactly what a test suite leaves out.", "anchors": ["src/weierstrass/curve.rs: new_proy_point, new_point, is_on_curve, decode", "src/montgomery/curve.rs", "src/edwards/curve.rs", "src/*/point.rs: core_neg, core_add, core_doubling, core_mul", "src/weierstrass/sswu.rs, svdw.rs, sswuab0.rs, src/montgomery/elligator2.rs, src/edwards/elligator2.rs", "src/instances/rational_maps.rs: push, pull"]}
{"id": "C95", "title": "Field elements of another field are refused by curves and maps", "statement": "If the coefficient a of a curve is an element of its field: is_on_curve panics on a point with a coordinate of another field, new_point panics if x or y is of another field, so every point that passes is_on_curve has all its coordinates in the field of the curve. SSWU, SVDW and SSWUAB0 refuse a z of another field (panic in new) and panic on a u of another field. Montgomery's Elligator 2 accepts any z in new but panics in map if z or u is of another field, and so does Edwards'. push and pull panic on points with coordinates of another field, except for the points they answer without arithmetic (the identity, and the two-torsion point in the 25519 map) and for the coordinate z in push of the isogenies, which never look at z (C45).", "quantifier": "all curves, all moduli, all elements of all fields", "why_tests_cant": "The claim ranges over all pairs of fields and all elements; a value that slipped through would silently be reduced modulo the wrong number.", "anchors": ["src/primefield/mod.rs: do_if_eq!", "src/weierstrass/curve.rs: new_point, is_on_curve", "src/montgomery/curve.rs", "src/edwards/curve.rs", "src/weierstrass/sswu.rs, svdw.rs, sswuab0.rs, src/montgomery/elligator2.rs, src/edwards/elligator2.rs", "src/instances/rational_maps.rs"]}
{"id": "C96", "title": "Threshold evaluation reconstructs the product with the secret", "statement": "Let a secret be the constant term of a polynomial with integer coefficients and let the holder of the identifier x keep the value at x, computed with the scalar operations. For any set of identifiers, pairwise distinct modulo the order and at least as many as the polynomial has coefficients, summing share * Lagrange coefficient with the scalar operations gives the scalar of the secret; and if each holder multiplies a point killed by the order by their share, and the combiner multiplies the results by the Lagrange coefficients and adds them up, nothing panics and the result is the point times the secret, whichever set of holders took part. In builds with overflow checks the shares and identifiers must not be multiples of the order, because * by a zero scalar panics there (C20).", "quantifier": "all odd prime orders, all polynomials, all identifier sets; for points: all valid curves of the three families, all points killed by the order, both build profiles", "why_tests_cant": "It ranges over every degree, every set of identifiers and every point; the claim composes field interpolation with division, scalar multiplication and addition of points.", "anchors": ["src/ops.rs: NewScalar", "src/primefield/mod.rs: FromFactory", "src/weierstrass/scalar.rs, src/montgomery/scalar.rs, src/edwards/scalar.rs: Add, Sub, Mul, Div", "src/*/point.rs: core_mul, core_add"]}
{"id": "C97", "title": "Sums of multiples", "statement": "For every list of scalars and points killed by the order, computing each product with * and adding them up from the identity with + gives the sum of the multiples in the group, whatever representatives the points have; nothing panics (in builds with overflow checks, if no scalar is a multiple of the order).", "quantifier": "all lengths, all valid curves of the three families, all points killed by the order, all integers, both build profiles", "why_tests_cant": "The length of the list is unbounded and the intermediate sums can hit the identity, doublings or inverses.", "anchors": ["src/*/point.rs: core_mul, core_add", "src/*/curve.rs: identity, new_scalar"]}
{"id": "C98", "title": "Encoded Weierstrass and Montgomery points have the format of SEC 1", "statement": "encode of a point whose affine coordinates are x and y returns 04, x, y (uncompressed) or 02/03, x (compressed, by the parity of y), each coordinate big-endian in size_bytes() bytes, whatever the projective representative. Conversely decode of that string, for every pair (x, y) that satisfies the equation, returns the point with exactly these affine coordinates.", "quantifier": "all curves of both families, all points other than the identity, all representatives, both formats; decoding: fields with p%4==3 or p%8==5", "why_tests_cant": "Other implementations rely on the exact bytes for every point; a round trip through the same library does not show a swapped coordinate or tag.", "anchors": ["src/weierstrass/point.rs: Encode", "src/weierstrass/curve.rs: Decode", "src/montgomery/point.rs: Encode", "src/montgomery/curve.rs: Decode"]}
{"id": "C99", "title": "Testing whether a point is a multiple of the generator", "statement": "P * new_scalar(-1) == -P decides whether the order kills the point P: it never panics, and it answers true exactly if the order times P is the identity, on every valid curve; on each of the eleven named curves that is exactly if P is a multiple of the generator. The more obvious P * new_scalar(get_order()) == identity() decides nothing: new_scalar reduces the order to zero, so the answer is true at every point of every valid curve in release builds (for instance at (0, 0) on CURVE25519, which is no multiple of the generator), and a panic at every point in builds with overflow checks.", "quantifier": "all valid curves of the three families; the seven Weierstrass, two Montgomery and two Edwards curves of the library; all points and representatives; both build profiles", "why_tests_cant": "The test must refuse every point outside the subgroup; tests try a few points, and the wrong test passes on every point of the subgroup.", "anchors": ["src/weierstrass/curve.rs: new_scalar, get_order", "src/weierstrass/point.rs: Mul, Neg, PartialEq", "src/montgomery/point.rs: Mul, Neg, PartialEq", "src/edwards/point.rs: Mul, Neg, PartialEq", "src/instances/weier.rs", "src/instances/mont.rs", "src/instances/edw.rs"]}
{"id": "C100", "title": "Multiplying by an integer beyond the order", "statement": "P * new_scalar(k) is k times P for every point P and every integer k. FALSE: new_scalar reduces k modulo the order of the generator, which does not kill every point. Exactly: the product is k times P if and only if floor(k / order) times (order times P) is the identity. On CURVE25519 and EDWARDS25519 a secret clamped as in RFC 7748 never gives the right multiple of a point that has a component of order eight, and never sends a point of order eight to the identity.", "quantifier": "all valid curves of the three families, all points, all integers, both build profiles; the 25519 curves: all clamped secrets", "why_tests_cant": "The products agree on all points of the prime-order subgroup, which are the ones tests use.", "anchors": ["src/weierstrass/curve.rs: new_scalar", "src/montgomery/curve.rs: new_scalar", "src/edwards/curve.rs: new_scalar", "src/weierstrass/scalar.rs: Scalar::new", "src/instances/mont.rs: CURVE25519", "src/instances/edw.rs: EDWARDS25519"]}
{"id": "C101", "title": "Multiplication where addition has exceptions", "statement": "On curves with points of order two (Weierstrass), or whose constant s is the y-coordinate of a point (Montgomery, b = 1), addition has exceptional pairs. For every such curve, every point P of it and every scalar k: let m run over the odd numbers spelled by leading bits of k. If (m-2) times P is never exceptional (of order two; with y-coordinate s), P * k is k times P; if it is for some m, P * k is the triple (0 : 0 : 0), without a panic. In particular, on a Weierstrass curve (and on a Montgomery curve with s = 0) all products with P are right if and only if the order of P is not twice an odd number.", "quantifier": "every prime, every nonsingular Weierstrass curve and every nonsingular Montgomery curve with b=1 and any s; all points, representatives and scalars; both build profiles (zero scalar: release)", "why_tests_cant": "Whether a product passes through an exceptional pair depends on the order of the point and on all leading parts of the scalar; a wrong result compares equal to every point.", "anchors": ["src/weierstrass/point.rs: core_mul, core_add, core_doubling", "src/montgomery/point.rs: core_mul, core_add"]}
{"id": "C102", "title": "Points reached by hashing to the 25519 curves", "statement": "On CURVE25519 and on EDWARDS25519 with Z = 2, mapping two field elements with Elligator 2, adding the images and multiplying by the cofactor misses fewer than 2^125 of the more than 2^252 multiples of the generator, and with three field elements every multiple of the generator is reached.", "quantifier": "all multiples of the generator; all pairs and triples of field elements; both build profiles", "why_tests_cant": "It is a statement about all 2^510 pairs of inputs and all points; no sample can show that few points are missed.", "anchors": ["src/montgomery/elligator2.rs: map", "src/edwards/elligator2.rs: map", "src/instances/rational_maps.rs: Ed2Mt25519, edwards25519_to_curve25519"]}
{"id": "C103", "title": "Signature checks with and without the cofactor", "statement": "Let X and K be any points, written as x times the generator plus a point t killed by the cofactor and k times the generator plus a point u killed by the cofactor (on the named curves other than BLS12381G1_11ISO every point can be written so). The check G * s == K + X * c accepts exactly if s = k + c x modulo the order and u + (c mod order) t is the identity. The check with both sides multiplied by get_cofactor() accepts exactly if s = k + c x modulo the order. So the first implies the second, they agree when X and K are multiples of the generator, and on EDWARDS25519 there is a key for which they disagree.", "quantifier": "all valid curves of the three families whose cofactor is below the order; all points X, K and representatives; all integers c, s; both build profiles (c and s nonzero modulo the order in debug)", "why_tests_cant": "Keys outside the subgroup are never produced by honest signers, so tests with generated keys cannot tell the two checks apart.", "anchors": ["src/weierstrass/point.rs: Mul, Add, PartialEq", "src/montgomery/point.rs: Mul, Add, PartialEq", "src/edwards/point.rs: Mul, Add, PartialEq", "src/weierstrass/curve.rs: get_cofactor, new_scalar", "src/montgomery/curve.rs: get_cofactor, new_scalar", "src/edwards/curve.rs: get_cofactor, new_scalar"]}
{"id": "C104", "title": "Points reached by hashing to the Weierstrass curves", "statement": "With the constants of RFC 9380, mapping one field element and clearing the cofactor reaches at least a quarter (simplified SWU on P256, P384, P521 and through the isogenies on SECP256K1 and BLS12381G1) or a sixth (Shallue-van de Woestijne on the five curves) of the multiples of the generator, mapping two and adding reaches at least a half or a third of them, in each case up to one millionth, and sums of five or seven images reach every multiple of the generator.", "quantifier": "all multiples of the generator; all field elements, pairs and lists of them; both build profiles; the ten maps with published constants", "why_tests_cant": "It is a statement about the number of results over all inputs; no sample can bound it.", "anchors": ["src/weierstrass/sswu.rs: SSWU::map", "src/weierstrass/svdw.rs: SVDW::map", "src/weierstrass/sswuab0.rs: SSWUAB0::map", "src/instances/rational_maps.rs: get_isogeny_secp256k1, get_isogeny_bls12381g1"]}
{"id": "C105", "title": "Keys and signatures received as arbitrary bytes", "statement": "decode accepts exactly the SEC 1 octet strings (Weierstrass and Montgomery; also the tag 03 for points with y = 0) or the RFC 8032 encodings (Edwards) of points of the curve. Decoding a received string, multiplying by the secret and encoding returns bytes exactly for those strings, and they are the encoding of the secret times that point; decoding a key A and a nonce point K and checking G * s == K + A * h gives a verdict exactly if both strings are such encodings, and the verdict is true exactly if the equation holds in the group. No other string ever leads to a result.", "quantifier": "all byte strings of all lengths for every received value; all secrets, responses and challenges; both build profiles; all valid curves of the three families; where a square root is taken, fields whose square roots the library implements (p = 3 mod 4 or 5 mod 8; C07 says what happens for the others)", "why_tests_cant": "The sender may choose any byte string; no sample of strings shows that none of the others is accepted.", "anchors": ["src/weierstrass/curve.rs: decode", "src/montgomery/curve.rs: decode", "src/edwards/curve.rs: decode", "src/weierstrass/point.rs: encode, Mul, PartialEq", "src/edwards/point.rs: encode, Mul, PartialEq"]}
{"id": "C106", "title": "The number of byte strings accepted as points", "statement": "decode accepts exactly as many byte strings as there are points: on the Weierstrass curves, one fewer than the number of points of each of the two lengths and none of another length; on the Montgomery curves one fewer than the number of points of the long form, and of the short form as many more as there are points with y = 0; on the Edwards curves exactly the number of points. For the named curves these are get_order() - 1 of each length (P256, P384, P521, SECP256K1 and its isogenous curve), get_order() * get_cofactor() short and one fewer long strings (CURVE25519, CURVE448), get_order() * get_cofactor() strings (EDWARDS25519, EDWARDS448).", "quantifier": "all byte strings of all lengths; all valid curves of the three families, and the named ones; where a square root is taken, fields whose square roots the library implements (p = 3 mod 4 or 5 mod 8; C07 says what happens for the others)", "why_tests_cant": "The strings are too many to enumerate, and a sample can neither show that no further one is accepted nor that none is missing.", "anchors": ["src/weierstrass/curve.rs: decode", "src/montgomery/curve.rs: decode", "src/edwards/curve.rs: decode", "src/instances.rs: get_curve"]}
{"id": "C107", "title": "Checking many signatures at once", "statement": "A list of Schnorr signatures (G * s == K + A * h) can be checked with one equation: with a coefficient z for each, G * sum(z s) == sum of K * z and A * (z h), computed with new_scalar, * , + and ==. For keys and nonce points killed by the order it accepts whenever all signatures are right, for any coefficients; and if it accepts for two values, different modulo the order, of the coefficient of one signature while the rest is unchanged, that signature is right. Nothing panics (in builds with overflow checks, if no scalar is a multiple of the order). For points outside the subgroup this fails: with a nonce point shifted by (0, -1) on an Edwards curve the single check rejects and the batch with coefficient 2 accepts.", "quantifier": "all lists of signatures of any length, all coefficients, challenges, responses, keys and nonce points killed by the order, all representatives; both build profiles; all valid curves of the three families", "why_tests_cant": "Lists and coefficients are unbounded; soundness is a statement about all wrong signatures.", "anchors": ["src/weierstrass/point.rs: Mul, Add, PartialEq", "src/montgomery/point.rs: Mul, Add, PartialEq", "src/edwards/point.rs: Mul, Add, PartialEq", "src/weierstrass/curve.rs: new_scalar, get_generator, identity"]}
{"id": "C108", "title": "Field operations of the point operations do not depend on the points", "statement": "Which operations of the prime field are called (construction, +, -, *, negation, powers with their exponents), and in which order, is the same for all operands of point addition, doubling, negation, subtraction, comparison and normalization, on all curves of one family: e.g. 24 products for an addition and 23 for a doubling on short Weierstrass curves, 28 on Montgomery and 19 on Edwards curves, checks included. For Point * Scalar the sequence is that of the identity followed by a doubling for each binary digit of the scalar and an addition after each digit one: it depends on the value of the scalar and on nothing else, and so does the number of products.", "quantifier": "all moduli (prime or not), all curves and points whose elements belong to the field, on the curve or not; all scalars of either build profile for which the product returns", "why_tests_cant": "Tests compare results; a branch that only few operands take is not seen by sampled inputs.", "anchors": ["src/weierstrass/point.rs: core_add, core_doubling, core_neg, core_mul, normalize, PartialEq", "src/montgomery/point.rs: core_add, core_neg, core_mul, normalize, PartialEq", "src/edwards/point.rs: core_add, core_neg, core_mul, normalize, PartialEq", "src/weierstrass/curve.rs: is_on_curve, new_proy_point, identity", "src/montgomery/curve.rs: is_on_curve, new_proy_point, identity", "src/edwards/curve.rs: is_on_curve, new_proy_point, identity"]}
{"id": "C109", "title": "Field operations of the maps to curves do not depend on the input", "statement": "Which operations of the prime field are called by MapToCurve::map, in which order and with which exponents, does not depend on the input (nor on the curve or Z, only on the modulus). This holds for SSWU, SVDW, Elligator 2 on Montgomery curves, SSWU followed by an isogeny, and Elligator 2 to edwards448. It fails for Elligator 2 to edwards25519: the input 0 is sent to the point (0,0) of the Montgomery curve, for which the rational map takes another branch with six products less; it holds for all other inputs.", "quantifier": "all moduli = 3 mod 4 or 5 mod 8 from 3 on, all curves and constants for which the map can be created, all inputs of the field; for maps through isogenies and rational maps all inputs for which the map returns", "why_tests_cant": "The exceptional input is one in 2^255; the claim is about all others.", "anchors": ["src/weierstrass/sswu.rs: SSWU::map", "src/weierstrass/svdw.rs: SVDW::map", "src/weierstrass/sswuab0.rs: SSWUAB0::map", "src/montgomery/elligator2.rs: Ell2::map", "src/edwards/elligator2.rs: Ell2::map", "src/instances/rational_maps.rs: push, pull", "src/primefield/mod.rs: sqrt, is_square, inv0, cmov"]}
{"id": "C110", "title": "Commitments to scalars", "statement": "With a second point H killed by the order, G * m + H * t computed with get_generator, new_scalar, * and + is m G + t H. Commitments add up: the sum of those to (m1, t1) and (m2, t2) == the one to (m1 + m2, t1 + t2). They are binding: if two of them are == for messages that differ modulo the order, the scalars (m1 - m2) / (t2 - t1) can be computed and G times the quotient == H. They are hiding: if H is a multiple of G other than the identity, then for every (m1, t1) and every m2 exactly one residue of t2 makes the commitments ==. Nothing panics (in builds with overflow checks, if no scalar is a multiple of the order).", "quantifier": "all integers for messages and randomness, all points H killed by the order and all their representatives, both build profiles, all valid curves of the three families", "why_tests_cant": "Hiding and binding are statements about all openings at once.", "anchors": ["src/weierstrass/point.rs: Mul, Add, Sub, PartialEq", "src/montgomery/point.rs: Mul, Add, Sub, PartialEq", "src/edwards/point.rs: Mul, Add, Sub, PartialEq", "src/weierstrass/curve.rs: new_scalar, get_generator", "src/weierstrass/scalar.rs: Sub, Div"]}
{"id": "C111", "title": "Encryption with points", "statement": "With the key A = G * a, the pair (G * t, M + A * t) decrypts with the secret b, as second - first * b, to a point == M exactly if the order divides t (a - b): the right secret decrypts every encryption of every point M of the curve (in the subgroup or not), and no wrong secret does if t is not zero modulo the order. Adding two encryptions in both places gives pairs == to the encryption of the sum of the messages with the sum of the randomness, which decrypts to the sum; with the identity as second message this re-randomises. Nothing panics (in builds with overflow checks, if no scalar is a multiple of the order).", "quantifier": "all points of the curve as messages, all integers for secrets and randomness, both build profiles, all valid curves of the three families", "why_tests_cant": "The claim is about all messages, keys and randomness; tests sample them.", "anchors": ["src/weierstrass/point.rs: Mul, Add, Sub, PartialEq", "src/montgomery/point.rs: Mul, Add, Sub, PartialEq", "src/edwards/point.rs: Mul, Add, Sub, PartialEq", "src/weierstrass/curve.rs: new_scalar, get_generator", "src/weierstrass/scalar.rs: Sub, Div"]}
{"id": "C112", "title": "Signatures as byte strings", "statement": "A signature scheme on top of the library with any hash function: the public key G * a and the nonce point G * k are encoded, the challenge is new_scalar of the hash of both encodings and the message, the response k + h a is computed with the scalar operations and serialised (big-endian on Weierstrass and Montgomery curves, little-endian on Edwards curves). Signing never panics. Verification, which decodes both strings and checks G * s == K + A * h, gives for these two strings, every message and every response string a verdict; it is true exactly if the difference of the responses is a times the difference of the challenges modulo the order. So every signature verifies; it verifies for another message exactly if the challenges agree modulo the order; among response strings of the same length below the order it is the only one accepted; and responses are not unique as strings: with a zero byte added at the most significant end they are accepted as well.", "quantifier": "all hash functions from byte strings to integers, all messages and response strings of any length, all secrets and nonces that are not multiples of the order, compressed or not, all valid curves of the three families, both build profiles (in debug with challenges and responses that are not multiples of the order); where a square root is taken, fields whose square roots the library implements (p = 3 mod 4 or 5 mod 8; C07 says what happens for the others)", "why_tests_cant": "Strings and hash functions are unbounded; uniqueness is a statement about all responses.", "anchors": ["src/weierstrass/point.rs: encode, Mul, Add, PartialEq", "src/weierstrass/curve.rs: decode, new_scalar, get_generator", "src/montgomery/point.rs: encode", "src/montgomery/curve.rs: decode", "src/edwards/point.rs: encode", "src/edwards/curve.rs: decode", "src/weierstrass/scalar.rs: to_bytes_be, to_bytes_le"]}
{"id": "C113", "title": "Values that stand for no point", "statement": "On curves with exceptional pairs + and * can return a value whose coordinates are all zero (C24, C101), and so do pull at (0,0) and the map to EDWARDS448 at 0, 1 and -1 (C44, C48). Such a value O passes the check of the curve and never goes away: O + Q, Q + O, O - Q, Q - O, -O and O * k with a nonzero scalar are O again for every value Q that passes the check, and O == Q is true for every such Q. So a check S == K + X * m with X = O accepts all S and K. is_zero is false for O, and its encoding is that of the point at infinity (Weierstrass, Montgomery) or zero bytes, the encoding of a point with y = 0 (Edwards). It is the only such value: everything else that passes the check stands for a point (on complete Edwards curves and Montgomery curves with b = 1). Hashing to EDWARDS448 gives O as soon as one of the two inputs is 0, 1 or -1, whatever the other one.", "quantifier": "every odd prime, all nonsingular Weierstrass and Montgomery curves, all Edwards coefficients; all values on the curve in any representative; all nonzero scalars; both build profiles; all pairs of field elements for the hash", "why_tests_cant": "Tests use curves and inputs where the value does not occur; that nothing removes it is a statement about all operands.", "anchors": ["src/weierstrass/point.rs: core_add, core_doubling, core_mul, PartialEq, encode", "src/montgomery/point.rs: core_add, core_mul, PartialEq, encode", "src/edwards/point.rs: core_add, core_mul, PartialEq, encode", "src/edwards/elligator2.rs: map", "src/instances/rational_maps.rs: pull"]}
{"id": "C114", "title": "Field operations of encode and decode", "statement": "Which operations of the prime field are called by encode is the same for all points of a curve family over one modulus, the identity included, and for both formats: one inversion and two products, three on Edwards curves. For decode they depend on the modulus alone but for the choice of the root: given a first coordinate below the modulus, whether or not a point with it exists, one of the two compressed encodings with it calls a fixed list of operations and the other one a single negation more; so the calls tell whether the encoded root is the one computed by sqrt. Uncompressed encodings of coordinates below the modulus call a fixed list, on the curve or not. Encodings rejected with an error call nothing, but for the conversion of the first coordinate if the second one is too large, and on Edwards curves the whole decompression if the root is 0 and the sign bit is set.", "quantifier": "all moduli from 3 on that are 3 mod 4 or 5 mod 8, prime or not, all curves whose constants belong to the field, all points and all byte strings", "why_tests_cant": "A test sees the result, not the operations called, and only for some inputs.", "anchors": ["src/weierstrass/curve.rs: decode", "src/montgomery/curve.rs: decode", "src/edwards/curve.rs: decode", "src/weierstrass/point.rs: encode, normalize", "src/montgomery/point.rs: encode, normalize", "src/edwards/point.rs: encode, normalize"]}
{"id": "C115", "title": "ECDSA signatures", "statement": "The ECDSA scheme on a Weierstrass curve, written with the public API: r is the first coordinate of G * k (read from its compressed encoding) as a scalar, s = (z + r d) / k, both serialised; verification checks that both numbers are between one and the order and that the first coordinate of G * (z / s) + Q * (r / s) is r as a scalar. Signing never panics for a nonce that is not a multiple of the order, and returns strings of the length of the order with r and s as specified; unless r or s is zero the signature verifies under every representative of the key. Verification gives a verdict for every two strings and every key in the subgroup, and it is true exactly if the numbers are in range and the first coordinate of (z G + r Q) / s is congruent to r; in particular the point at infinity is never accepted. s and its negative get the same verdict. Two signatures with one nonce of different message representatives reveal the secret through the scalar operations. If r is the first coordinate of a point of the subgroup, R * (s / r) - G * (z / r) with R decoded from either tag and r is a key under which the signature verifies; every key for which the check point has first coordinate r is one of these two.", "quantifier": "all valid Weierstrass curves of odd order, all secrets, nonces, message representatives, byte strings of any length and keys killed by the order, both build profiles (in debug with z not a multiple of the order); recovery for fields with p \u2261 3 mod 4 or p \u2261 5 mod 8", "why_tests_cant": "A statement about all strings, keys and messages, including the exact set of accepted signatures.", "anchors": ["src/weierstrass/point.rs: encode, Mul, Add, Sub, PartialEq", "src/weierstrass/curve.rs: decode, new_scalar, get_generator, get_order", "src/weierstrass/scalar.rs: Add, Mul, Sub, Div, PartialEq, to_bytes_be"]}
{"id": "C116", "title": "Shares that can be checked", "statement": "A dealer shares the constant term of a polynomial as in C96 and publishes G * c for every coefficient c. Dealing never panics and gives one point per coefficient. The holder of x checks G * s == C0 + x * (C1 + x * (...)), evaluated from the published points with * and +: the check never panics, and accepts s exactly if s is the value of the polynomial at x modulo the order. Whatever multiples of the generator were published and however they are represented, accepted shares of at least as many identifiers, distinct modulo the order, as there are published points combine with the scalar operations to the discrete logarithm of the first published point.", "quantifier": "all polynomials, identifiers and claimed shares, all valid curves of the three families, both build profiles (in debug with coefficients, identifiers and shares that are not multiples of the order)", "why_tests_cant": "Polynomials of every degree and every set of holders.", "anchors": ["src/weierstrass/point.rs: Mul, Add, PartialEq", "src/montgomery/point.rs: Mul, Add, PartialEq", "src/edwards/point.rs: Mul, Add, PartialEq", "src/weierstrass/scalar.rs: Add, Mul, Div", "src/weierstrass/curve.rs: new_scalar, get_generator, identity"]}
{"id": "C117", "title": "Opposite points and their encodings", "statement": "If a compressed string (tag 02 or 03) of a Weierstrass curve is accepted, the string with the other tag is accepted too; it is read as the opposite of the first point under ==, and not as the first point. On a Montgomery curve the same holds, except that a point of order two is its own opposite and both tags are read as it. On an Edwards curve, toggling the top bit of the last byte of an accepted string gives an accepted string of the opposite point, different from the first, if the first coordinate is not zero; if it is zero the toggled string is not accepted. Compressed encodings of two points other than the identity agree after the tag, and encodings of two Edwards points apart from the top bit, exactly if the points are equal or opposite.", "quantifier": "all byte strings, all valid curves of the three families (decoding: fields with p \u2261 3 mod 4 or p \u2261 5 mod 8), all representatives", "why_tests_cant": "A relation between the results of two calls for every string that is accepted.", "anchors": ["src/weierstrass/curve.rs: decode", "src/montgomery/curve.rs: decode", "src/edwards/curve.rs: decode", "src/weierstrass/point.rs: encode, Neg, PartialEq", "src/montgomery/point.rs: encode, Neg, PartialEq", "src/edwards/point.rs: Neg, PartialEq"]}
{"id": "C118", "title": "Proving knowledge of a discrete logarithm", "statement": "With a base P, a key Q, a commitment K, a challenge c and a response s, the check P * s == K + Q * c gives a verdict and never panics; it is true exactly if s times P is K plus c times Q in the group. If responses to two challenges that differ modulo the order are accepted for one commitment, (s - s') / (c - c'), computed with the scalar operations, is a discrete logarithm of the key: P multiplied by it is == Q, also if the key was not assumed to have one. For every challenge and response, K = P * s - Q * c is accepted, and the verdict on any other commitment is whether it is == to this one.", "quantifier": "all valid curves of the three families, all bases and keys killed by the order, all commitments, all representatives, all integers; both build profiles (in debug with challenges, responses and the difference of the responses not multiples of the order)", "why_tests_cant": "Relates the results of several calls for all points and all integers.", "anchors": ["src/weierstrass/point.rs: Mul, Add, Sub, PartialEq", "src/montgomery/point.rs: Mul, Add, Sub, PartialEq", "src/edwards/point.rs: Mul, Add, Sub, PartialEq", "src/weierstrass/scalar.rs: Sub, Div", "src/weierstrass/curve.rs: new_scalar"]}
{"id": "C119", "title": "Accepted strings that stand for points of small order", "statement": "On the Edwards, Montgomery and prime-order Weierstrass curves the test whether get_cofactor() times a decoded point is == to the identity gives a verdict on every accepted string and never panics. On the two Edwards curves it is true for exactly get_cofactor() strings, so for 8 and 4; on the two Montgomery curves for exactly get_cofactor() strings of the short form and one fewer of the long form. If it is false, get_cofactor() times the point is == to the generator times some integer that is not a multiple of the order. The test P * new_scalar(-1) == -P of C99 is true for exactly get_order() strings on the Edwards curves and for get_order() - 1 strings of either form on the Montgomery curves and on all seven Weierstrass curves, although decode accepts many more on the curves of BLS12-381 (C106). On the curves of prime order no accepted string stands for a point that an integer which is not a multiple of the order takes to the identity.", "quantifier": "all byte strings; the two Edwards, two Montgomery and seven Weierstrass curves; both build profiles (and every valid curve with such a number of points); where a square root is taken, fields whose square roots the library implements (p = 3 mod 4 or 5 mod 8; C07 says what happens for the others)", "why_tests_cant": "Counts the strings with a property among all byte strings.", "anchors": ["src/edwards/curve.rs: Decode", "src/montgomery/curve.rs: Decode", "src/weierstrass/curve.rs: Decode", "src/edwards/point.rs: Mul, PartialEq, Neg", "src/montgomery/point.rs: Mul, PartialEq, Neg", "src/weierstrass/point.rs: Mul, PartialEq", "src/weierstrass/curve.rs: get_cofactor, new_scalar, identity"]}
{"id": "C120", "title": "Any arithmetic expression computes its value", "statement": "A program written with the operators of field elements (integer constants, inputs, +, -, *, unary -, ^ 2u32, ^ &BigUint, /, 1u32 / x), however it is nested, does not panic and returns the canonical element of the value of the expression modulo p, where the inverse of zero is zero. Two such programs return elements that are ==, and elements with equal serialisations, exactly if their values are equal, so a caller may rewrite an expression by any law of the field. The same holds for scalars modulo the order. Without division it holds for every modulus and every order, prime or not. On quadratic fields it holds without / and ^ &BigUint; with / the value is the one in which every inverse is replaced by the inverse of the conjugate (C14), and a ^ &BigUint anywhere makes the program panic (C15).", "quantifier": "all expressions of any depth, all canonical inputs, all odd prime moduli and orders (all moduli and orders without division); quadratic fields over primes 3 modulo 4 for the last sentence", "why_tests_cant": "Quantifies over all programs built from the operators, all inputs and all moduli.", "anchors": ["src/primefield/mod.rs: Add, Sub, Mul, Div, Neg, BitXor", "src/quadraticfield/mod.rs: Add, Sub, Mul, Div, Neg, BitXor", "src/weierstrass/scalar.rs: Add, Sub, Mul, Div, Neg", "src/montgomery/scalar.rs: Add, Sub, Mul, Div, Neg", "src/edwards/scalar.rs: Add, Sub, Mul, Div, Neg"]}
{"id": "C121", "title": "Any program of point and scalar operations computes its value", "statement": "A program that starts from given points and scalars and uses identity(), get_generator(), +, -, unary - of points and * of a point by a scalar, where each scalar is itself computed with the scalar operators, returns a point that stands for the value of the program in the group of the curve, however it is nested and however the given points are represented. Two programs return points that are == exactly if their values are equal in the group. If the given points are multiples of the generator, this is the case exactly if the two multiples, computed from the same programs modulo the order of the generator, are equal; so any check of this form between points can be decided by arithmetic on scalars. The result has an encoding, which decodes to the value of the program, and two programs have the same encoding exactly if their values are equal; on Weierstrass and Montgomery curves for values other than the identity (C28, C34). In a build with overflow checks this holds when no scalar by which the program multiplies has the value zero; if one does, the whole program panics.", "quantifier": "all programs of any depth, all given points on the curve in any projective representation, all canonical scalars, both build profiles; all curves with a generator of prime order other than 2 on which the addition formulas are complete, for Montgomery curves with b = 1; all built-in curves are among them; for the encodings, fields whose square roots the library implements (p = 3 mod 4 or 5 mod 8)", "why_tests_cant": "Quantifies over all programs, all points and all scalars; the value of a program is an element of a group that tests cannot enumerate.", "anchors": ["src/weierstrass/point.rs: Add, Sub, Neg, Mul, PartialEq", "src/montgomery/point.rs: Add, Sub, Neg, Mul, PartialEq", "src/edwards/point.rs: Add, Sub, Neg, Mul, PartialEq", "src/weierstrass/scalar.rs", "src/montgomery/scalar.rs", "src/edwards/scalar.rs"]}
{"id": "C122", "title": "A client cannot tell the library from the group", "statement": "Take any client of a curve: a program that holds points in registers, computes with identity(), get_generator(), new_point, +, -, unary - and * by new_scalar of integers, and chooses every next step from everything it has observed so far: results of == and is_zero, encodings in either format, errors of decode. Its outcome, the final value or the panic that ended it, is the one it has when the library is replaced by the abstract group of the curve with one fixed encoding and decoding of the elements (inverse to each other; on Weierstrass and Montgomery curves except at the identity, C28, C34). So the outcome does not depend on the projective representatives of the points it starts with. In builds with overflow checks a multiplication by a multiple of the order ends the client with a panic, as does new_point of a pair off the curve in all builds; on Edwards curves is_zero is also true for (0, -1) (C38).", "quantifier": "all clients with any number of steps and any adaptive choices, all starting points in any projective representation, both build profiles; all curves with a generator of prime order on which the addition formulas are complete, for Montgomery curves with b = 1, over fields whose square roots the library implements (p = 3 mod 4 or 5 mod 8); all built-in curves are among them", "why_tests_cant": "Quantifies over all adaptive programs; a dependence on the representation can hide in any history of operations.", "anchors": ["src/weierstrass/point.rs", "src/weierstrass/curve.rs: identity, get_generator, new_point, decode", "src/montgomery/point.rs", "src/montgomery/curve.rs: identity, get_generator, new_point, decode", "src/edwards/point.rs", "src/edwards/curve.rs: identity, get_generator, new_point, decode"]}
{"id": "C123", "title": "A client cannot tell field elements and scalars from residues", "statement": "Take any client of a prime field: a program that holds elements in registers, computes with elt of integers, of literals and of bytes, +, -, *, /, unary -, 1u32 / x, ^ by natural and integer exponents, sqrt and cmov, and chooses every next step from everything it has observed so far: ==, is_zero, is_one, is_square, sgn0, bytes in either order, text. Its outcome is the one it has with the integers modulo p, a fixed choice of square roots, the fixed-length bytes and the decimal text of the residues, and a fixed reading of literals (right for all decimal, 0x, 0o and 0b literals, C12); nothing but a malformed literal panics. Division by 0 gives 0, and 0 ^ &BigInt e is 1 if p - 1 divides e (C05). The same holds for clients of the scalars of a group (new_scalar, +, -, *, /, unary -, 1u32 / x, ==, iter_rl, iter_lr, bytes, text) and the integers modulo the order; only iter_lr of 0 panics in builds with overflow checks (C20). When several threads run clients of a prime field, on fields shared in any way, every thread has under every schedule that outcome or the panic of the borrowed square-root cache (C08), the latter only if another thread shares its field; and every thread that is scheduled again and again ends.", "quantifier": "all clients with any number of steps and any adaptive choices, all starting values; all primes p = 3 mod 4 or 5 mod 8 (the fields whose square roots the library implements); all odd prime orders whose bit length fits usize, both build profiles; any number of threads and every schedule", "why_tests_cant": "Quantifies over all adaptive programs; an element that is not reduced, or an observation that depends on how a value was computed, can hide in any history of operations.", "anchors": ["src/primefield/mod.rs", "src/weierstrass/scalar.rs", "src/montgomery/scalar.rs", "src/edwards/scalar.rs"]}

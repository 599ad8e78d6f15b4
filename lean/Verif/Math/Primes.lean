import Mathlib.Tactic.NormNum.Prime
import Verif.Math.LucasCert

/-! # Primality of the field sizes and group orders of the built-in curves

Generated: each certificate lists prime factors of `N - 1` (Pocklington) or `N + 1` (Lucas) with witnesses;
the kernel checks it. -/

set_option maxRecDepth 100000

namespace Redox.Primes

open Redox.Pock

theorem prime_2 : Nat.Prime 2 := by norm_num
theorem prime_3 : Nat.Prime 3 := by norm_num
theorem prime_5 : Nat.Prime 5 := by norm_num
theorem prime_7 : Nat.Prime 7 := by norm_num
theorem prime_11 : Nat.Prime 11 := by norm_num
theorem prime_13 : Nat.Prime 13 := by norm_num
theorem prime_17 : Nat.Prime 17 := by norm_num
theorem prime_19 : Nat.Prime 19 := by norm_num
theorem prime_23 : Nat.Prime 23 := by norm_num
theorem prime_29 : Nat.Prime 29 := by norm_num
theorem prime_31 : Nat.Prime 31 := by norm_num
theorem prime_53 : Nat.Prime 53 := by norm_num
theorem prime_59 : Nat.Prime 59 := by norm_num
theorem prime_61 : Nat.Prime 61 := by norm_num
theorem prime_89 : Nat.Prime 89 := by norm_num
theorem prime_107 : Nat.Prime 107 := by norm_num
theorem prime_131 : Nat.Prime 131 := by norm_num
theorem prime_139 : Nat.Prime 139 := by norm_num
theorem prime_151 : Nat.Prime 151 := by norm_num
theorem prime_157 : Nat.Prime 157 := by norm_num
theorem prime_173 : Nat.Prime 173 := by norm_num
theorem prime_197 : Nat.Prime 197 := by norm_num
theorem prime_223 : Nat.Prime 223 := by norm_num
theorem prime_229 : Nat.Prime 229 := by norm_num
theorem prime_347 : Nat.Prime 347 := by norm_num
theorem prime_353 : Nat.Prime 353 := by norm_num
theorem prime_521 : Nat.Prime 521 := by norm_num
theorem prime_631 : Nat.Prime 631 := by norm_num
theorem prime_683 : Nat.Prime 683 := by norm_num
theorem prime_1433 : Nat.Prime 1433 := by norm_num
theorem prime_1613 : Nat.Prime 1613 := by norm_num
theorem prime_2731 : Nat.Prime 2731 := by norm_num
theorem prime_3407 : Nat.Prime 3407 := by norm_num
theorem prime_3727 : Nat.Prime 3727 := by norm_num
theorem prime_4051 : Nat.Prime 4051 := by norm_num
theorem prime_4153 : Nat.Prime 4153 := by norm_num
theorem prime_8191 : Nat.Prime 8191 := by norm_num
theorem prime_10177 : Nat.Prime 10177 := by norm_num
theorem prime_10847 : Nat.Prime 10847 := by norm_num
theorem prime_16699 : Nat.Prime 16699 := by norm_num
theorem prime_17449 : Nat.Prime 17449 := by norm_num
theorem prime_27751 : Nat.Prime 27751 := by norm_num
theorem prime_32941 : Nat.Prime 32941 := by norm_num
theorem prime_38189 : Nat.Prime 38189 := by norm_num
theorem prime_42641 : Nat.Prime 42641 := by norm_num
theorem prime_51481 : Nat.Prime 51481 := by norm_num
theorem prime_57467 : Nat.Prime 57467 := by norm_num
theorem prime_61681 : Nat.Prime 61681 := by norm_num
theorem prime_67153 : Nat.Prime 67153 := by norm_num
theorem prime_85831 : Nat.Prime 85831 := by norm_num
theorem prime_104471 : Nat.Prime 104471 := by norm_num
theorem prime_118913 : Nat.Prime 118913 := by norm_num
theorem prime_120233 : Nat.Prime 120233 := by norm_num
theorem prime_125527 : Nat.Prime 125527 := by norm_num
theorem prime_132049 : Nat.Prime 132049 := by norm_num
theorem prime_616547 : Nat.Prime 616547 := by norm_num
theorem prime_663763 : Nat.Prime 663763 := by norm_num
theorem prime_785203 : Nat.Prime 785203 := by norm_num
theorem prime_906349 : Nat.Prime 906349 := by norm_num

theorem prime_c00 : Nat.Prime 66417393611 :=
  prime_of_check 66417393611 [(197, 1, 2), (173, 1, 2), (53, 1, 2)]
    (by simp only [List.mem_cons, List.not_mem_nil, or_false, forall_eq_or_imp, forall_eq]; exact ⟨prime_197, prime_173, prime_53⟩) (by decide +kernel)

theorem prime_c01 : Nat.Prime 11290956913871 :=
  prime_of_check 11290956913871 [(66417393611, 1, 2)]
    (by simp only [List.mem_cons, List.not_mem_nil, or_false, forall_eq_or_imp, forall_eq]; exact prime_c00) (by decide +kernel)

theorem prime_c02 : Nat.Prime 204061199 :=
  prime_of_check 204061199 [(107, 1, 2), (23, 1, 2), (11, 1, 3)]
    (by simp only [List.mem_cons, List.not_mem_nil, or_false, forall_eq_or_imp, forall_eq]; exact ⟨prime_107, prime_23, prime_11⟩) (by decide +kernel)

theorem prime_c03 : Nat.Prime 34282281433 :=
  prime_of_check 34282281433 [(204061199, 1, 2)]
    (by simp only [List.mem_cons, List.not_mem_nil, or_false, forall_eq_or_imp, forall_eq]; exact prime_c02) (by decide +kernel)

theorem prime_c04 : Nat.Prime 774023187263532362759620327192479577272145303 :=
  prime_of_check 774023187263532362759620327192479577272145303 [(11290956913871, 1, 2), (34282281433, 1, 2)]
    (by simp only [List.mem_cons, List.not_mem_nil, or_false, forall_eq_or_imp, forall_eq]; exact ⟨prime_c01, prime_c03⟩) (by decide +kernel)

theorem prime_c05 : Nat.Prime 835945042244614951780389953367877943453916927241 :=
  prime_of_check 835945042244614951780389953367877943453916927241 [(774023187263532362759620327192479577272145303, 1, 2)]
    (by simp only [List.mem_cons, List.not_mem_nil, or_false, forall_eq_or_imp, forall_eq]; exact prime_c04) (by decide +kernel)

theorem prime_p_P256 : Nat.Prime 115792089210356248762697446949407573530086143415290314195533631308867097853951 :=
  prime_of_check 115792089210356248762697446949407573530086143415290314195533631308867097853951 [(835945042244614951780389953367877943453916927241, 1, 2)]
    (by simp only [List.mem_cons, List.not_mem_nil, or_false, forall_eq_or_imp, forall_eq]; exact prime_c05) (by decide +kernel)

theorem prime_c07 : Nat.Prime 3969899 :=
  prime_of_check 3969899 [(104471, 1, 2)]
    (by simp only [List.mem_cons, List.not_mem_nil, or_false, forall_eq_or_imp, forall_eq]; exact prime_104471) (by decide +kernel)

theorem prime_c08 : Nat.Prime 1002328039319 :=
  prime_of_check 1002328039319 [(3969899, 1, 2)]
    (by simp only [List.mem_cons, List.not_mem_nil, or_false, forall_eq_or_imp, forall_eq]; exact prime_c07) (by decide +kernel)

theorem prime_c09 : Nat.Prime 311245691 :=
  prime_of_check 311245691 [(29, 2, 2), (17, 1, 2), (7, 1, 2)]
    (by simp only [List.mem_cons, List.not_mem_nil, or_false, forall_eq_or_imp, forall_eq]; exact ⟨prime_29, prime_17, prime_7⟩) (by decide +kernel)

theorem prime_c10 : Nat.Prime 622491383 :=
  prime_of_check 622491383 [(311245691, 1, 2)]
    (by simp only [List.mem_cons, List.not_mem_nil, or_false, forall_eq_or_imp, forall_eq]; exact prime_c09) (by decide +kernel)

theorem prime_c11 : Nat.Prime 9350987 :=
  prime_of_check 9350987 [(229, 1, 2), (17, 1, 2)]
    (by simp only [List.mem_cons, List.not_mem_nil, or_false, forall_eq_or_imp, forall_eq]; exact ⟨prime_229, prime_17⟩) (by decide +kernel)

theorem prime_c12 : Nat.Prime 187019741 :=
  prime_of_check 187019741 [(9350987, 1, 2)]
    (by simp only [List.mem_cons, List.not_mem_nil, or_false, forall_eq_or_imp, forall_eq]; exact prime_c11) (by decide +kernel)

theorem prime_r_P256 : Nat.Prime 115792089210356248762697446949407573529996955224135760342422259061068512044369 :=
  prime_of_check 115792089210356248762697446949407573529996955224135760342422259061068512044369 [(1002328039319, 1, 2), (622491383, 1, 2), (187019741, 1, 2), (38189, 1, 2), (17449, 1, 2), (3407, 1, 2)]
    (by simp only [List.mem_cons, List.not_mem_nil, or_false, forall_eq_or_imp, forall_eq]; exact ⟨prime_c08, prime_c10, prime_c12, prime_38189, prime_17449, prime_3407⟩) (by decide +kernel)

theorem prime_c14 : Nat.Prime 11086606772014272553 :=
  prime_of_check 11086606772014272553 [(616547, 1, 2), (139, 1, 2), (3, 2, 2), (2, 3, 5)]
    (by simp only [List.mem_cons, List.not_mem_nil, or_false, forall_eq_or_imp, forall_eq]; exact ⟨prime_616547, prime_139, prime_3, prime_2⟩) (by decide +kernel)

theorem prime_c15 : Nat.Prime 8159549167260760038009040363 :=
  prime_of_check 8159549167260760038009040363 [(11086606772014272553, 1, 2)]
    (by simp only [List.mem_cons, List.not_mem_nil, or_false, forall_eq_or_imp, forall_eq]; exact prime_c14) (by decide +kernel)

theorem prime_c16 : Nat.Prime 40345414362795819639465565963287192069003839174993 :=
  prime_of_check 40345414362795819639465565963287192069003839174993 [(8159549167260760038009040363, 1, 2)]
    (by simp only [List.mem_cons, List.not_mem_nil, or_false, forall_eq_or_imp, forall_eq]; exact prime_c15) (by decide +kernel)

theorem prime_c17 : Nat.Prime 86783325370917264016753367580254509213783001175613995114348889312551991 :=
  prime_of_checkL 86783325370917264016753367580254509213783001175613995114348889312551991 3 [(40345414362795819639465565963287192069003839174993, 1, 7, 4)]
    (by simp only [List.mem_cons, List.not_mem_nil, or_false, forall_eq_or_imp, forall_eq]; exact prime_c16) (by decide +kernel)

theorem prime_c18 : Nat.Prime 19173790298027098165721053155794528970226934547887232785722672956982046098136719667167519737147526097 :=
  prime_of_checkL 19173790298027098165721053155794528970226934547887232785722672956982046098136719667167519737147526097 3 [(86783325370917264016753367580254509213783001175613995114348889312551991, 1, 7, 4)]
    (by simp only [List.mem_cons, List.not_mem_nil, or_false, forall_eq_or_imp, forall_eq]; exact prime_c17) (by decide +kernel)

theorem prime_p_P384 : Nat.Prime 39402006196394479212279040100143613805079739270465446667948293404245721771496870329047266088258938001861606973112319 :=
  prime_of_check 39402006196394479212279040100143613805079739270465446667948293404245721771496870329047266088258938001861606973112319 [(19173790298027098165721053155794528970226934547887232785722672956982046098136719667167519737147526097, 1, 2)]
    (by simp only [List.mem_cons, List.not_mem_nil, or_false, forall_eq_or_imp, forall_eq]; exact prime_c18) (by decide +kernel)

theorem prime_c20 : Nat.Prime 3175199329 :=
  prime_of_check 3175199329 [(61, 1, 2), (29, 1, 2), (7, 1, 2), (3, 1, 3), (2, 5, 19)]
    (by simp only [List.mem_cons, List.not_mem_nil, or_false, forall_eq_or_imp, forall_eq]; exact ⟨prime_61, prime_29, prime_7, prime_3, prime_2⟩) (by decide +kernel)

theorem prime_c21 : Nat.Prime 4260544064869581257 :=
  prime_of_checkL 4260544064869581257 3 [(3175199329, 1, 7, 4)]
    (by simp only [List.mem_cons, List.not_mem_nil, or_false, forall_eq_or_imp, forall_eq]; exact prime_c20) (by decide +kernel)

theorem prime_c22 : Nat.Prime 1271925782949905310139751 :=
  prime_of_checkL 1271925782949905310139751 11 [(4260544064869581257, 1, 1090222099671347408691213, 545111049835673704345607)]
    (by simp only [List.mem_cons, List.not_mem_nil, or_false, forall_eq_or_imp, forall_eq]; exact prime_c21) (by decide +kernel)

theorem prime_c23 : Nat.Prime 47305914464531840082161426516959381 :=
  prime_of_check 47305914464531840082161426516959381 [(1271925782949905310139751, 1, 2)]
    (by simp only [List.mem_cons, List.not_mem_nil, or_false, forall_eq_or_imp, forall_eq]; exact prime_c22) (by decide +kernel)

theorem prime_c24 : Nat.Prime 805430499673119109238880447877750420907 :=
  prime_of_check 805430499673119109238880447877750420907 [(47305914464531840082161426516959381, 1, 2)]
    (by simp only [List.mem_cons, List.not_mem_nil, or_false, forall_eq_or_imp, forall_eq]; exact prime_c23) (by decide +kernel)

theorem prime_c25 : Nat.Prime 1059392654943455286185473617842338478315215895509773412096307 :=
  prime_of_checkL 1059392654943455286185473617842338478315215895509773412096307 2 [(805430499673119109238880447877750420907, 1, 3, 2)]
    (by simp only [List.mem_cons, List.not_mem_nil, or_false, forall_eq_or_imp, forall_eq]; exact prime_c24) (by decide +kernel)

theorem prime_c26 : Nat.Prime 3055465788140352002733946906144561090641249606160407884365391979704929268480326390471 :=
  prime_of_check 3055465788140352002733946906144561090641249606160407884365391979704929268480326390471 [(1059392654943455286185473617842338478315215895509773412096307, 1, 2)]
    (by simp only [List.mem_cons, List.not_mem_nil, or_false, forall_eq_or_imp, forall_eq]; exact prime_c25) (by decide +kernel)

theorem prime_r_P384 : Nat.Prime 39402006196394479212279040100143613805079739270465446667946905279627659399113263569398956308152294913554433653942643 :=
  prime_of_check 39402006196394479212279040100143613805079739270465446667946905279627659399113263569398956308152294913554433653942643 [(3055465788140352002733946906144561090641249606160407884365391979704929268480326390471, 1, 2)]
    (by simp only [List.mem_cons, List.not_mem_nil, or_false, forall_eq_or_imp, forall_eq]; exact prime_c26) (by decide +kernel)

theorem prime_c28 : Nat.Prime 8620289 :=
  prime_of_check 8620289 [(151, 1, 2), (2, 8, 3)]
    (by simp only [List.mem_cons, List.not_mem_nil, or_false, forall_eq_or_imp, forall_eq]; exact ⟨prime_151, prime_2⟩) (by decide +kernel)

theorem prime_c29 : Nat.Prime 2534364967 :=
  prime_of_check 2534364967 [(8620289, 1, 2)]
    (by simp only [List.mem_cons, List.not_mem_nil, or_false, forall_eq_or_imp, forall_eq]; exact prime_c28) (by decide +kernel)

theorem prime_c30 : Nat.Prime 145295143558111 :=
  prime_of_check 145295143558111 [(2534364967, 1, 3)]
    (by simp only [List.mem_cons, List.not_mem_nil, or_false, forall_eq_or_imp, forall_eq]; exact prime_c29) (by decide +kernel)

theorem prime_c31 : Nat.Prime 108140989558681 :=
  prime_of_check 108140989558681 [(1433, 1, 3), (683, 1, 3), (13, 1, 2)]
    (by simp only [List.mem_cons, List.not_mem_nil, or_false, forall_eq_or_imp, forall_eq]; exact ⟨prime_1433, prime_683, prime_13⟩) (by decide +kernel)

theorem prime_c32 : Nat.Prime 2995763 :=
  prime_of_check 2995763 [(11, 1, 2), (7, 3, 2)]
    (by simp only [List.mem_cons, List.not_mem_nil, or_false, forall_eq_or_imp, forall_eq]; exact ⟨prime_11, prime_7⟩) (by decide +kernel)

theorem prime_c33 : Nat.Prime 65427463921 :=
  prime_of_check 65427463921 [(2995763, 1, 3)]
    (by simp only [List.mem_cons, List.not_mem_nil, or_false, forall_eq_or_imp, forall_eq]; exact prime_c32) (by decide +kernel)

theorem prime_c34 : Nat.Prime 2400573761 :=
  prime_of_check 2400573761 [(347, 1, 3), (13, 1, 2), (5, 1, 2), (2, 6, 3)]
    (by simp only [List.mem_cons, List.not_mem_nil, or_false, forall_eq_or_imp, forall_eq]; exact ⟨prime_347, prime_13, prime_5, prime_2⟩) (by decide +kernel)

theorem prime_p_P521 : Nat.Prime 6864797660130609714981900799081393217269435300143305409394463459185543183397656052122559640661454554977296311391480858037121987999716643812574028291115057151 :=
  prime_of_check 6864797660130609714981900799081393217269435300143305409394463459185543183397656052122559640661454554977296311391480858037121987999716643812574028291115057151 [(145295143558111, 1, 3), (108140989558681, 1, 3), (65427463921, 1, 3), (2400573761, 1, 3), (61681, 1, 3), (51481, 1, 3), (42641, 1, 3), (8191, 1, 3), (2731, 1, 3), (1613, 1, 3), (521, 1, 2), (157, 1, 3), (131, 1, 3)]
    (by simp only [List.mem_cons, List.not_mem_nil, or_false, forall_eq_or_imp, forall_eq]; exact ⟨prime_c30, prime_c31, prime_c33, prime_c34, prime_61681, prime_51481, prime_42641, prime_8191, prime_2731, prime_1613, prime_521, prime_157, prime_131⟩) (by decide +kernel)

theorem prime_c36 : Nat.Prime 11923882163 :=
  prime_of_check 11923882163 [(118913, 1, 2)]
    (by simp only [List.mem_cons, List.not_mem_nil, or_false, forall_eq_or_imp, forall_eq]; exact prime_118913) (by decide +kernel)

theorem prime_c37 : Nat.Prime 2742492897491 :=
  prime_of_check 2742492897491 [(11923882163, 1, 2)]
    (by simp only [List.mem_cons, List.not_mem_nil, or_false, forall_eq_or_imp, forall_eq]; exact prime_c36) (by decide +kernel)

theorem prime_c38 : Nat.Prime 3154339 :=
  prime_of_check 3154339 [(89, 1, 2), (11, 1, 2), (3, 2, 2)]
    (by simp only [List.mem_cons, List.not_mem_nil, or_false, forall_eq_or_imp, forall_eq]; exact ⟨prime_89, prime_11, prime_3⟩) (by decide +kernel)

theorem prime_c39 : Nat.Prime 12617357 :=
  prime_of_check 12617357 [(3154339, 1, 2)]
    (by simp only [List.mem_cons, List.not_mem_nil, or_false, forall_eq_or_imp, forall_eq]; exact prime_c38) (by decide +kernel)

theorem prime_c40 : Nat.Prime 1117814976287443177659483657095414003 :=
  prime_of_check 1117814976287443177659483657095414003 [(2742492897491, 1, 2), (12617357, 1, 2)]
    (by simp only [List.mem_cons, List.not_mem_nil, or_false, forall_eq_or_imp, forall_eq]; exact ⟨prime_c37, prime_c39⟩) (by decide +kernel)

theorem prime_c41 : Nat.Prime 9894712450279245035225391287211308533561263802001480744023 :=
  prime_of_check 9894712450279245035225391287211308533561263802001480744023 [(1117814976287443177659483657095414003, 1, 2)]
    (by simp only [List.mem_cons, List.not_mem_nil, or_false, forall_eq_or_imp, forall_eq]; exact prime_c40) (by decide +kernel)

theorem prime_c42 : Nat.Prime 2374730988067018808454093908930714048054703312480355378565521 :=
  prime_of_check 2374730988067018808454093908930714048054703312480355378565521 [(9894712450279245035225391287211308533561263802001480744023, 1, 2)]
    (by simp only [List.mem_cons, List.not_mem_nil, or_false, forall_eq_or_imp, forall_eq]; exact prime_c41) (by decide +kernel)

theorem prime_c43 : Nat.Prime 51804625509771251553534546678595322522265033968214829542043448183730599 :=
  prime_of_check 51804625509771251553534546678595322522265033968214829542043448183730599 [(2374730988067018808454093908930714048054703312480355378565521, 1, 2)]
    (by simp only [List.mem_cons, List.not_mem_nil, or_false, forall_eq_or_imp, forall_eq]; exact prime_c42) (by decide +kernel)

theorem prime_c44 : Nat.Prime 3636410625392624440351547907325502812950802686368714273274221490761556277859337865760708490235892541081304511 :=
  prime_of_checkL 3636410625392624440351547907325502812950802686368714273274221490761556277859337865760708490235892541081304511 11 [(51804625509771251553534546678595322522265033968214829542043448183730599, 1, 2597436160994731743108248505232502009250573347406224480910158207686825912756669904114791778739923243629503220, 3116923393193678091729898206279002411100688016887469377092189849224191095308003884937750134487907892355403866)]
    (by simp only [List.mem_cons, List.not_mem_nil, or_false, forall_eq_or_imp, forall_eq]; exact prime_c43) (by decide +kernel)

theorem prime_c45 : Nat.Prime 3615194794881930010216942559103847593050265703173292383701371712350878926821661243755933835426896058418509759880171943 :=
  prime_of_check 3615194794881930010216942559103847593050265703173292383701371712350878926821661243755933835426896058418509759880171943 [(3636410625392624440351547907325502812950802686368714273274221490761556277859337865760708490235892541081304511, 1, 2)]
    (by simp only [List.mem_cons, List.not_mem_nil, or_false, forall_eq_or_imp, forall_eq]; exact prime_c44) (by decide +kernel)

theorem prime_r_P521 : Nat.Prime 6864797660130609714981900799081393217269435300143305409394463459185543183397655394245057746333217197532963996371363321113864768612440380340372808892707005449 :=
  prime_of_check 6864797660130609714981900799081393217269435300143305409394463459185543183397655394245057746333217197532963996371363321113864768612440380340372808892707005449 [(3615194794881930010216942559103847593050265703173292383701371712350878926821661243755933835426896058418509759880171943, 1, 2)]
    (by simp only [List.mem_cons, List.not_mem_nil, or_false, forall_eq_or_imp, forall_eq]; exact prime_c45) (by decide +kernel)

theorem prime_c47 : Nat.Prime 1677941 :=
  prime_of_check 1677941 [(29, 1, 2), (11, 1, 2), (5, 1, 2)]
    (by simp only [List.mem_cons, List.not_mem_nil, or_false, forall_eq_or_imp, forall_eq]; exact ⟨prime_29, prime_11, prime_5⟩) (by decide +kernel)

theorem prime_c48 : Nat.Prime 226001873291 :=
  prime_of_check 226001873291 [(1677941, 1, 2)]
    (by simp only [List.mem_cons, List.not_mem_nil, or_false, forall_eq_or_imp, forall_eq]; exact prime_c47) (by decide +kernel)

theorem prime_c49 : Nat.Prime 52264155157329191921789220645151 :=
  prime_of_check 52264155157329191921789220645151 [(226001873291, 1, 2), (67153, 1, 2)]
    (by simp only [List.mem_cons, List.not_mem_nil, or_false, forall_eq_or_imp, forall_eq]; exact ⟨prime_c48, prime_67153⟩) (by decide +kernel)

theorem prime_c50 : Nat.Prime 167923213999556140948539415933068055104199458880486393949430169 :=
  prime_of_check 167923213999556140948539415933068055104199458880486393949430169 [(52264155157329191921789220645151, 1, 2)]
    (by simp only [List.mem_cons, List.not_mem_nil, or_false, forall_eq_or_imp, forall_eq]; exact prime_c49) (by decide +kernel)

theorem prime_c51 : Nat.Prime 205115282021455665897114700593932402728804164701536103180137503955397371 :=
  prime_of_checkL 205115282021455665897114700593932402728804164701536103180137503955397371 2 [(167923213999556140948539415933068055104199458880486393949430169, 1, 3, 2)]
    (by simp only [List.mem_cons, List.not_mem_nil, or_false, forall_eq_or_imp, forall_eq]; exact prime_c50) (by decide +kernel)

theorem prime_p_SECP256K1 : Nat.Prime 115792089237316195423570985008687907853269984665640564039457584007908834671663 :=
  prime_of_check 115792089237316195423570985008687907853269984665640564039457584007908834671663 [(205115282021455665897114700593932402728804164701536103180137503955397371, 1, 2)]
    (by simp only [List.mem_cons, List.not_mem_nil, or_false, forall_eq_or_imp, forall_eq]; exact prime_c51) (by decide +kernel)

theorem prime_c53 : Nat.Prime 174723607534414371449 :=
  prime_of_check 174723607534414371449 [(120233, 1, 2), (4051, 1, 2), (59, 1, 2)]
    (by simp only [List.mem_cons, List.not_mem_nil, or_false, forall_eq_or_imp, forall_eq]; exact ⟨prime_120233, prime_4051, prime_59⟩) (by decide +kernel)

theorem prime_c54 : Nat.Prime 107361793816595537 :=
  prime_of_check 107361793816595537 [(85831, 1, 2), (16699, 1, 2)]
    (by simp only [List.mem_cons, List.not_mem_nil, or_false, forall_eq_or_imp, forall_eq]; exact ⟨prime_85831, prime_16699⟩) (by decide +kernel)

theorem prime_r_SECP256K1 : Nat.Prime 115792089237316195423570985008687907852837564279074904382605163141518161494337 :=
  prime_of_check 115792089237316195423570985008687907852837564279074904382605163141518161494337 [(174723607534414371449, 1, 2), (107361793816595537, 1, 2), (631, 1, 2)]
    (by simp only [List.mem_cons, List.not_mem_nil, or_false, forall_eq_or_imp, forall_eq]; exact ⟨prime_c53, prime_c54, prime_631⟩) (by decide +kernel)

theorem prime_c56 : Nat.Prime 2655053 :=
  prime_of_check 2655053 [(663763, 1, 2)]
    (by simp only [List.mem_cons, List.not_mem_nil, or_false, forall_eq_or_imp, forall_eq]; exact prime_663763) (by decide +kernel)

theorem prime_c57 : Nat.Prime 103456795199 :=
  prime_of_check 103456795199 [(2655053, 1, 2)]
    (by simp only [List.mem_cons, List.not_mem_nil, or_false, forall_eq_or_imp, forall_eq]; exact prime_c56) (by decide +kernel)

theorem prime_c58 : Nat.Prime 43822643137573217 :=
  prime_of_check 43822643137573217 [(103456795199, 1, 2)]
    (by simp only [List.mem_cons, List.not_mem_nil, or_false, forall_eq_or_imp, forall_eq]; exact prime_c57) (by decide +kernel)

theorem prime_c59 : Nat.Prime 4206973741207028833 :=
  prime_of_check 4206973741207028833 [(43822643137573217, 1, 2)]
    (by simp only [List.mem_cons, List.not_mem_nil, or_false, forall_eq_or_imp, forall_eq]; exact prime_c58) (by decide +kernel)

theorem prime_c60 : Nat.Prime 12563249 :=
  prime_of_check 12563249 [(785203, 1, 2)]
    (by simp only [List.mem_cons, List.not_mem_nil, or_false, forall_eq_or_imp, forall_eq]; exact prime_785203) (by decide +kernel)

theorem prime_c61 : Nat.Prime 9152131 :=
  prime_of_check 9152131 [(31, 1, 2), (13, 1, 2), (5, 1, 2), (3, 1, 2)]
    (by simp only [List.mem_cons, List.not_mem_nil, or_false, forall_eq_or_imp, forall_eq]; exact ⟨prime_31, prime_13, prime_5, prime_3⟩) (by decide +kernel)

theorem prime_c62 : Nat.Prime 15778400344354997994418419698270088123916926905054652752758194827714659 :=
  prime_of_checkL 15778400344354997994418419698270088123916926905054652752758194827714659 2 [(4206973741207028833, 1, 3, 2), (12563249, 1, 3, 2), (9152131, 1, 3, 2), (59, 1, 3, 2), (5, 1, 3, 2)]
    (by simp only [List.mem_cons, List.not_mem_nil, or_false, forall_eq_or_imp, forall_eq]; exact ⟨prime_c59, prime_c60, prime_c61, prime_59, prime_5⟩) (by decide +kernel)

theorem prime_p_BLS12381G1 : Nat.Prime 4002409555221667393417789825735904156556882819939007885332058136124031650490837864442687629129015664037894272559787 :=
  prime_of_check 4002409555221667393417789825735904156556882819939007885332058136124031650490837864442687629129015664037894272559787 [(15778400344354997994418419698270088123916926905054652752758194827714659, 1, 2)]
    (by simp only [List.mem_cons, List.not_mem_nil, or_false, forall_eq_or_imp, forall_eq]; exact prime_c62) (by decide +kernel)

theorem prime_c64 : Nat.Prime 2508409 :=
  prime_of_check 2508409 [(7, 2, 2), (3, 4, 2)]
    (by simp only [List.mem_cons, List.not_mem_nil, or_false, forall_eq_or_imp, forall_eq]; exact ⟨prime_7, prime_3⟩) (by decide +kernel)

theorem prime_r_BLS12381G1 : Nat.Prime 52435875175126190479447740508185965837690552500527637822603658699938581184513 :=
  prime_of_check 52435875175126190479447740508185965837690552500527637822603658699938581184513 [(2508409, 1, 2), (906349, 2, 2), (125527, 1, 2), (10177, 1, 2), (19, 1, 2), (11, 1, 2), (3, 1, 2), (2, 32, 5)]
    (by simp only [List.mem_cons, List.not_mem_nil, or_false, forall_eq_or_imp, forall_eq]; exact ⟨prime_c64, prime_906349, prime_125527, prime_10177, prime_19, prime_11, prime_3, prime_2⟩) (by decide +kernel)

theorem prime_c66 : Nat.Prime 31757755568855353 :=
  prime_of_check 31757755568855353 [(4153, 1, 2), (223, 1, 2), (107, 1, 2), (31, 1, 2)]
    (by simp only [List.mem_cons, List.not_mem_nil, or_false, forall_eq_or_imp, forall_eq]; exact ⟨prime_4153, prime_223, prime_107, prime_31⟩) (by decide +kernel)

theorem prime_c67 : Nat.Prime 1923133 :=
  prime_of_check 1923133 [(3727, 1, 2)]
    (by simp only [List.mem_cons, List.not_mem_nil, or_false, forall_eq_or_imp, forall_eq]; exact prime_3727) (by decide +kernel)

theorem prime_c68 : Nat.Prime 74058212732561358302231226437062788676166966415465897661863160754340907 :=
  prime_of_check 74058212732561358302231226437062788676166966415465897661863160754340907 [(31757755568855353, 1, 2), (1923133, 1, 2), (132049, 1, 2), (57467, 1, 2), (353, 1, 2), (3, 1, 2)]
    (by simp only [List.mem_cons, List.not_mem_nil, or_false, forall_eq_or_imp, forall_eq]; exact ⟨prime_c66, prime_c67, prime_132049, prime_57467, prime_353, prime_3⟩) (by decide +kernel)

theorem prime_p_CURVE25519 : Nat.Prime 57896044618658097711785492504343953926634992332820282019728792003956564819949 :=
  prime_of_check 57896044618658097711785492504343953926634992332820282019728792003956564819949 [(74058212732561358302231226437062788676166966415465897661863160754340907, 1, 2)]
    (by simp only [List.mem_cons, List.not_mem_nil, or_false, forall_eq_or_imp, forall_eq]; exact prime_c68) (by decide +kernel)

theorem prime_c70 : Nat.Prime 37161823 :=
  prime_of_check 37161823 [(10847, 1, 2)]
    (by simp only [List.mem_cons, List.not_mem_nil, or_false, forall_eq_or_imp, forall_eq]; exact prime_10847) (by decide +kernel)

theorem prime_c71 : Nat.Prime 1257559732178653 :=
  prime_of_checkL 1257559732178653 2 [(37161823, 1, 3, 2)]
    (by simp only [List.mem_cons, List.not_mem_nil, or_false, forall_eq_or_imp, forall_eq]; exact prime_c70) (by decide +kernel)

theorem prime_c72 : Nat.Prime 4434155615661930479 :=
  prime_of_check 4434155615661930479 [(1257559732178653, 1, 2)]
    (by simp only [List.mem_cons, List.not_mem_nil, or_false, forall_eq_or_imp, forall_eq]; exact prime_c71) (by decide +kernel)

theorem prime_c73 : Nat.Prime 172054593956031949258510691 :=
  prime_of_check 172054593956031949258510691 [(4434155615661930479, 1, 2)]
    (by simp only [List.mem_cons, List.not_mem_nil, or_false, forall_eq_or_imp, forall_eq]; exact prime_c72) (by decide +kernel)

theorem prime_c74 : Nat.Prime 19757330305831588566944191468367130476339 :=
  prime_of_check 19757330305831588566944191468367130476339 [(172054593956031949258510691, 1, 2)]
    (by simp only [List.mem_cons, List.not_mem_nil, or_false, forall_eq_or_imp, forall_eq]; exact prime_c73) (by decide +kernel)

theorem prime_c75 : Nat.Prime 276602624281642239937218680557139826668747 :=
  prime_of_check 276602624281642239937218680557139826668747 [(19757330305831588566944191468367130476339, 1, 2)]
    (by simp only [List.mem_cons, List.not_mem_nil, or_false, forall_eq_or_imp, forall_eq]; exact prime_c74) (by decide +kernel)

theorem prime_r_CURVE25519 : Nat.Prime 7237005577332262213973186563042994240857116359379907606001950938285454250989 :=
  prime_of_check 7237005577332262213973186563042994240857116359379907606001950938285454250989 [(276602624281642239937218680557139826668747, 1, 2)]
    (by simp only [List.mem_cons, List.not_mem_nil, or_false, forall_eq_or_imp, forall_eq]; exact prime_c75) (by decide +kernel)

theorem prime_p_CURVE448 : Nat.Prime 726838724295606890549323807888004534353641360687318060281490199180612328166730772686396383698676545930088884461843637361053498018365439 :=
  prime_of_checkL 726838724295606890549323807888004534353641360687318060281490199180612328166730772686396383698676545930088884461843637361053498018365439 7 [(3, 1, 242279574765202296849774602629334844784547120229106020093830066393537442722243590895465461232892181976696294820614545787017832672788476, 484559149530404593699549205258669689569094240458212040187660132787074885444487181790930922465784363953392589641229091574035665345576958), (2, 224, 242279574765202296849774602629334844784547120229106020093830066393537442722243590895465461232892181976696294820614545787017832672788476, 484559149530404593699549205258669689569094240458212040187660132787074885444487181790930922465784363953392589641229091574035665345576958)]
    (by simp only [List.mem_cons, List.not_mem_nil, or_false, forall_eq_or_imp, forall_eq]; exact ⟨prime_3, prime_2⟩) (by decide +kernel)

theorem prime_c78 : Nat.Prime 140017300428759581 :=
  prime_of_check 140017300428759581 [(32941, 1, 2), (27751, 1, 2)]
    (by simp only [List.mem_cons, List.not_mem_nil, or_false, forall_eq_or_imp, forall_eq]; exact ⟨prime_32941, prime_27751⟩) (by decide +kernel)

theorem prime_c79 : Nat.Prime 29665056385498608818216895931 :=
  prime_of_check 29665056385498608818216895931 [(140017300428759581, 1, 2)]
    (by simp only [List.mem_cons, List.not_mem_nil, or_false, forall_eq_or_imp, forall_eq]; exact prime_c78) (by decide +kernel)

theorem prime_c80 : Nat.Prime 114756119850104151063524444795366676451879864596155278981 :=
  prime_of_checkL 114756119850104151063524444795366676451879864596155278981 2 [(29665056385498608818216895931, 1, 3, 2)]
    (by simp only [List.mem_cons, List.not_mem_nil, or_false, forall_eq_or_imp, forall_eq]; exact prime_c79) (by decide +kernel)

theorem prime_c81 : Nat.Prime 8996178453151867186640644914120558507643994643291955210719384786876817 :=
  prime_of_check 8996178453151867186640644914120558507643994643291955210719384786876817 [(114756119850104151063524444795366676451879864596155278981, 1, 2)]
    (by simp only [List.mem_cons, List.not_mem_nil, or_false, forall_eq_or_imp, forall_eq]; exact prime_c80) (by decide +kernel)

theorem prime_c82 : Nat.Prime 1920512778107470297051284135413772115136848527535710350664567491939533123490247759565643789 :=
  prime_of_checkL 1920512778107470297051284135413772115136848527535710350664567491939533123490247759565643789 2 [(8996178453151867186640644914120558507643994643291955210719384786876817, 1, 3, 2)]
    (by simp only [List.mem_cons, List.not_mem_nil, or_false, forall_eq_or_imp, forall_eq]; exact prime_c81) (by decide +kernel)

theorem prime_r_CURVE448 : Nat.Prime 181709681073901722637330951972001133588410340171829515070372549795146003961539585716195755291692375963310293709091662304773755859649779 :=
  prime_of_checkL 181709681073901722637330951972001133588410340171829515070372549795146003961539585716195755291692375963310293709091662304773755859649779 2 [(1920512778107470297051284135413772115136848527535710350664567491939533123490247759565643789, 1, 3, 2)]
    (by simp only [List.mem_cons, List.not_mem_nil, or_false, forall_eq_or_imp, forall_eq]; exact prime_c82) (by decide +kernel)

end Redox.Primes

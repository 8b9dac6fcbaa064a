import Verif.Lemmas.Certify
import Mathlib.Tactic.NormNum.Prime

/-! # The primes in the parameter files of `/repo/param`

Made by a program that factors; checked by the kernel. -/

set_option autoImplicit false
set_option linter.style.longLine false

namespace Pbc.Shipped

open Pbc.Certify

theorem none_mem : ∀ x ∈ ([] : List (ℕ × ℕ)), x.1.Prime := by simp

theorem cons_mem {l e : ℕ} {fs : List (ℕ × ℕ)} (hl : l.Prime) (h : ∀ x ∈ fs, x.1.Prime) :
    ∀ x ∈ (l, e) :: fs, x.1.Prime := List.forall_mem_cons.2 ⟨hl, h⟩

theorem a_r : Nat.Prime 730750818665451621361119245571504901405976559617 :=
  prime_minus (a := 3) (bits := 160) [(2, 107)]
    (cons_mem (by norm_num) none_mem) (by decide +kernel) (by decide +kernel)

theorem e_r : Nat.Prime 730750862221594424981965739670091261094297337857 :=
  prime_minus (a := 3) (bits := 160) [(2, 135)]
    (cons_mem (by norm_num) none_mem) (by decide +kernel) (by decide +kernel)

theorem p8 : Nat.Prime 405269 :=
  prime_minus (a := 2) (bits := 19) [(2, 2), (71, 1), (1427, 1)]
    (cons_mem (by norm_num) (cons_mem (by norm_num) (cons_mem (by norm_num) none_mem))) (by decide +kernel) (by decide +kernel)

theorem p7 : Nat.Prime 810539 :=
  prime_minus (a := 2) (bits := 20) [(2, 1), (405269, 1)]
    (cons_mem (by norm_num) (cons_mem p8 none_mem)) (by decide +kernel) (by decide +kernel)

theorem p6 : Nat.Prime 9726469 :=
  prime_minus (a := 2) (bits := 24) [(2, 2), (3, 1), (810539, 1)]
    (cons_mem (by norm_num) (cons_mem (by norm_num) (cons_mem p7 none_mem))) (by decide +kernel) (by decide +kernel)

theorem p5 : Nat.Prime 11414255007487628441 :=
  prime_minus (a := 3) (bits := 64) [(2, 3), (5, 1), (1721, 1), (9726469, 1)]
    (cons_mem (by norm_num) (cons_mem (by norm_num) (cons_mem (by norm_num) (cons_mem p6 none_mem)))) (by decide +kernel) (by decide +kernel)

theorem p9 : Nat.Prime 24636649 :=
  prime_minus (a := 19) (bits := 25) [(2, 3), (3, 1), (47, 1), (21841, 1)]
    (cons_mem (by norm_num) (cons_mem (by norm_num) (cons_mem (by norm_num) (cons_mem (by norm_num) none_mem)))) (by decide +kernel) (by decide +kernel)

theorem p4 : Nat.Prime 3150665571195672686220316477637 :=
  prime_minus (a := 2) (bits := 102) [(2, 2), (2801, 1), (24636649, 1), (11414255007487628441, 1)]
    (cons_mem (by norm_num) (cons_mem (by norm_num) (cons_mem p9 (cons_mem p5 none_mem)))) (by decide +kernel) (by decide +kernel)

theorem p3 : Nat.Prime 18903993427174036117321898865823 :=
  prime_minus (a := 6) (bits := 104) [(2, 1), (3, 1), (3150665571195672686220316477637, 1)]
    (cons_mem (by norm_num) (cons_mem (by norm_num) (cons_mem p4 none_mem))) (by decide +kernel) (by decide +kernel)

theorem p12 : Nat.Prime 43882169 :=
  prime_minus (a := 3) (bits := 26) [(2, 3), (11, 1), (17, 1), (29333, 1)]
    (cons_mem (by norm_num) (cons_mem (by norm_num) (cons_mem (by norm_num) (cons_mem (by norm_num) none_mem)))) (by decide +kernel) (by decide +kernel)

theorem p11 : Nat.Prime 789879043 :=
  prime_minus (a := 3) (bits := 30) [(2, 1), (3, 2), (43882169, 1)]
    (cons_mem (by norm_num) (cons_mem (by norm_num) (cons_mem p12 none_mem))) (by decide +kernel) (by decide +kernel)

theorem p10 : Nat.Prime 9478548517 :=
  prime_minus (a := 2) (bits := 34) [(2, 2), (3, 1), (789879043, 1)]
    (cons_mem (by norm_num) (cons_mem (by norm_num) (cons_mem p11 none_mem))) (by decide +kernel) (by decide +kernel)

theorem f_r : Nat.Prime 205523667896953300194895899082072403858390252929 :=
  prime_minus (a := 7) (bits := 158) [(2, 7), (3, 1), (29, 1), (103, 1), (9478548517, 1), (18903993427174036117321898865823, 1)]
    (cons_mem (by norm_num) (cons_mem (by norm_num) (cons_mem (by norm_num) (cons_mem (by norm_num) (cons_mem p10 (cons_mem p3 none_mem)))))) (by decide +kernel) (by decide +kernel)

theorem p15 : Nat.Prime 190475924081 :=
  prime_minus (a := 15) (bits := 38) [(2, 4), (5, 1), (13, 1), (53, 1), (67, 1)]
    (cons_mem (by norm_num) (cons_mem (by norm_num) (cons_mem (by norm_num) (cons_mem (by norm_num) (cons_mem (by norm_num) none_mem))))) (by decide +kernel) (by decide +kernel)

theorem p14 : Nat.Prime 380951848163 :=
  prime_minus (a := 2) (bits := 39) [(2, 1), (190475924081, 1)]
    (cons_mem (by norm_num) (cons_mem p15 none_mem)) (by decide +kernel) (by decide +kernel)

theorem p16 : Nat.Prime 6698043697 :=
  prime_minus (a := 13) (bits := 33) [(2, 4), (3, 1), (29, 1), (37, 1), (47, 1)]
    (cons_mem (by norm_num) (cons_mem (by norm_num) (cons_mem (by norm_num) (cons_mem (by norm_num) (cons_mem (by norm_num) none_mem))))) (by decide +kernel) (by decide +kernel)

theorem g149_r : Nat.Prime 503189899097385532598571084778608176410973351 :=
  prime_minus (a := 7) (bits := 149) [(2, 1), (5, 2), (853, 1), (6698043697, 1), (380951848163, 1)]
    (cons_mem (by norm_num) (cons_mem (by norm_num) (cons_mem (by norm_num) (cons_mem p16 (cons_mem p14 none_mem))))) (by decide +kernel) (by decide +kernel)

theorem p20 : Nat.Prime 118267789 :=
  prime_minus (a := 10) (bits := 27) [(2, 2), (3, 1), (569, 1), (17321, 1)]
    (cons_mem (by norm_num) (cons_mem (by norm_num) (cons_mem (by norm_num) (cons_mem (by norm_num) none_mem)))) (by decide +kernel) (by decide +kernel)

theorem p19 : Nat.Prime 447052242421 :=
  prime_minus (a := 2) (bits := 39) [(2, 2), (3, 3), (5, 1), (7, 1), (118267789, 1)]
    (cons_mem (by norm_num) (cons_mem (by norm_num) (cons_mem (by norm_num) (cons_mem (by norm_num) (cons_mem p20 none_mem))))) (by decide +kernel) (by decide +kernel)

theorem p18 : Nat.Prime 6214026169651901 :=
  prime_minus (a := 3) (bits := 53) [(2, 2), (5, 2), (139, 1), (447052242421, 1)]
    (cons_mem (by norm_num) (cons_mem (by norm_num) (cons_mem (by norm_num) (cons_mem p19 none_mem)))) (by decide +kernel) (by decide +kernel)

theorem d159_r : Nat.Prime 208617601094290618684641029477488665211553761021 :=
  prime_minus (a := 6) (bits := 158) [(2, 2), (3, 2), (5, 1), (7, 1), (557, 1), (907, 1), (98711, 1), (6214026169651901, 1)]
    (cons_mem (by norm_num) (cons_mem (by norm_num) (cons_mem (by norm_num) (cons_mem (by norm_num) (cons_mem (by norm_num) (cons_mem (by norm_num) (cons_mem (by norm_num) (cons_mem p18 none_mem)))))))) (by decide +kernel) (by decide +kernel)

theorem p25 : Nat.Prime 4341504569 :=
  prime_minus (a := 3) (bits := 33) [(2, 3), (331, 1), (881, 1)]
    (cons_mem (by norm_num) (cons_mem (by norm_num) (cons_mem (by norm_num) none_mem))) (by decide +kernel) (by decide +kernel)

theorem p24 : Nat.Prime 67909814468299 :=
  prime_minus (a := 3) (bits := 46) [(2, 1), (3, 2), (11, 1), (79, 1), (4341504569, 1)]
    (cons_mem (by norm_num) (cons_mem (by norm_num) (cons_mem (by norm_num) (cons_mem (by norm_num) (cons_mem p25 none_mem))))) (by decide +kernel) (by decide +kernel)

theorem p23 : Nat.Prime 22455874169861366929 :=
  prime_minus (a := 11) (bits := 65) [(2, 4), (3, 1), (83, 2), (67909814468299, 1)]
    (cons_mem (by norm_num) (cons_mem (by norm_num) (cons_mem (by norm_num) (cons_mem p24 none_mem)))) (by decide +kernel) (by decide +kernel)

theorem p27 : Nat.Prime 220589 :=
  prime_minus (a := 2) (bits := 18) [(2, 2), (55147, 1)]
    (cons_mem (by norm_num) (cons_mem (by norm_num) none_mem)) (by decide +kernel) (by decide +kernel)

theorem p26 : Nat.Prime 5262812363 :=
  prime_minus (a := 2) (bits := 33) [(2, 1), (79, 1), (151, 1), (220589, 1)]
    (cons_mem (by norm_num) (cons_mem (by norm_num) (cons_mem (by norm_num) (cons_mem p27 none_mem)))) (by decide +kernel) (by decide +kernel)

theorem p28 : Nat.Prime 594577 :=
  prime_minus (a := 10) (bits := 20) [(2, 4), (3, 2), (4129, 1)]
    (cons_mem (by norm_num) (cons_mem (by norm_num) (cons_mem (by norm_num) none_mem))) (by decide +kernel) (by decide +kernel)

theorem p22 : Nat.Prime 6886238076625827036023430043967437943 :=
  prime_minus (a := 5) (bits := 123) [(2, 1), (7, 2), (594577, 1), (5262812363, 1), (22455874169861366929, 1)]
    (cons_mem (by norm_num) (cons_mem (by norm_num) (cons_mem p28 (cons_mem p26 (cons_mem p23 none_mem))))) (by decide +kernel) (by decide +kernel)

theorem p30 : Nat.Prime 350003 :=
  prime_minus (a := 2) (bits := 19) [(2, 1), (139, 1), (1259, 1)]
    (cons_mem (by norm_num) (cons_mem (by norm_num) (cons_mem (by norm_num) none_mem))) (by decide +kernel) (by decide +kernel)

theorem p29 : Nat.Prime 1227110519 :=
  prime_minus (a := 13) (bits := 31) [(2, 1), (1753, 1), (350003, 1)]
    (cons_mem (by norm_num) (cons_mem (by norm_num) (cons_mem p30 none_mem))) (by decide +kernel) (by decide +kernel)

theorem d201_r : Nat.Prime 1865751832009427548920907365321162072917283500309320153 :=
  prime_minus (a := 5) (bits := 181) [(2, 3), (3, 1), (2153, 1), (4273, 1), (1227110519, 1), (6886238076625827036023430043967437943, 1)]
    (cons_mem (by norm_num) (cons_mem (by norm_num) (cons_mem (by norm_num) (cons_mem (by norm_num) (cons_mem p29 (cons_mem p22 none_mem)))))) (by decide +kernel) (by decide +kernel)

theorem p33 : Nat.Prime 73293635433467 :=
  prime_minus (a := 2) (bits := 47) [(2, 1), (7, 2), (61, 1), (2003, 1)]
    (cons_mem (by norm_num) (cons_mem (by norm_num) (cons_mem (by norm_num) (cons_mem (by norm_num) none_mem)))) (by decide +kernel) (by decide +kernel)

theorem p34 : Nat.Prime 86648147 :=
  prime_minus (a := 2) (bits := 27) [(2, 1), (13, 1), (317, 1), (10513, 1)]
    (cons_mem (by norm_num) (cons_mem (by norm_num) (cons_mem (by norm_num) (cons_mem (by norm_num) none_mem)))) (by decide +kernel) (by decide +kernel)

theorem p32 : Nat.Prime 368343946437800525467643 :=
  prime_minus (a := 2) (bits := 79) [(2, 1), (29, 1), (86648147, 1), (73293635433467, 1)]
    (cons_mem (by norm_num) (cons_mem (by norm_num) (cons_mem p34 (cons_mem p33 none_mem)))) (by decide +kernel) (by decide +kernel)

theorem p36 : Nat.Prime 571001 :=
  prime_minus (a := 3) (bits := 20) [(2, 3), (5, 3)]
    (cons_mem (by norm_num) (cons_mem (by norm_num) none_mem)) (by decide +kernel) (by decide +kernel)

theorem p35 : Nat.Prime 559580981 :=
  prime_minus (a := 2) (bits := 30) [(2, 2), (5, 1), (7, 2), (571001, 1)]
    (cons_mem (by norm_num) (cons_mem (by norm_num) (cons_mem (by norm_num) (cons_mem p36 none_mem)))) (by decide +kernel) (by decide +kernel)

theorem d224_r : Nat.Prime 15028799613985034465755506450771561352583254744125520639296541195021 :=
  prime_minus (a := 10) (bits := 224) [(2, 2), (3, 2), (5, 1), (7, 1), (11, 1), (1699, 1), (15643, 1), (19813, 1), (559580981, 1), (368343946437800525467643, 1)]
    (cons_mem (by norm_num) (cons_mem (by norm_num) (cons_mem (by norm_num) (cons_mem (by norm_num) (cons_mem (by norm_num) (cons_mem (by norm_num) (cons_mem (by norm_num) (cons_mem (by norm_num) (cons_mem p35 (cons_mem p32 none_mem)))))))))) (by decide +kernel) (by decide +kernel)

theorem p40 : Nat.Prime 419650257191213 :=
  prime_minus (a := 2) (bits := 49) [(2, 2), (11161, 1), (20161, 1)]
    (cons_mem (by norm_num) (cons_mem (by norm_num) (cons_mem (by norm_num) none_mem))) (by decide +kernel) (by decide +kernel)

theorem p39 : Nat.Prime 839300514382427 :=
  prime_minus (a := 2) (bits := 50) [(2, 1), (419650257191213, 1)]
    (cons_mem (by norm_num) (cons_mem p40 none_mem)) (by decide +kernel) (by decide +kernel)

theorem p41 : Nat.Prime 36324152393 :=
  prime_minus (a := 3) (bits := 36) [(2, 3), (11, 1), (7127, 1)]
    (cons_mem (by norm_num) (cons_mem (by norm_num) (cons_mem (by norm_num) none_mem))) (by decide +kernel) (by decide +kernel)

theorem p38 : Nat.Prime 22499317283507518172347984519 :=
  prime_minus (a := 3) (bits := 95) [(2, 1), (3, 2), (41, 1), (36324152393, 1), (839300514382427, 1)]
    (cons_mem (by norm_num) (cons_mem (by norm_num) (cons_mem (by norm_num) (cons_mem p41 (cons_mem p39 none_mem))))) (by decide +kernel) (by decide +kernel)

theorem p42 : Nat.Prime 22459479299 :=
  prime_minus (a := 2) (bits := 35) [(2, 1), (37, 1), (41, 1), (1061, 1)]
    (cons_mem (by norm_num) (cons_mem (by norm_num) (cons_mem (by norm_num) (cons_mem (by norm_num) none_mem)))) (by decide +kernel) (by decide +kernel)

theorem p43 : Nat.Prime 929051 :=
  prime_minus (a := 2) (bits := 20) [(2, 1), (5, 2), (17, 1), (1093, 1)]
    (cons_mem (by norm_num) (cons_mem (by norm_num) (cons_mem (by norm_num) (cons_mem (by norm_num) none_mem)))) (by decide +kernel) (by decide +kernel)

theorem p44 : Nat.Prime 129293 :=
  prime_minus (a := 2) (bits := 17) [(2, 2), (32323, 1)]
    (cons_mem (by norm_num) (cons_mem (by norm_num) none_mem)) (by decide +kernel) (by decide +kernel)

theorem d105171_r : Nat.Prime 25587298927080027658012919827448583433838299638361665187 :=
  prime_minus (a := 2) (bits := 185) [(2, 1), (3, 2), (11, 1), (2129, 1), (129293, 1), (929051, 1), (22459479299, 1), (22499317283507518172347984519, 1)]
    (cons_mem (by norm_num) (cons_mem (by norm_num) (cons_mem (by norm_num) (cons_mem (by norm_num) (cons_mem p44 (cons_mem p43 (cons_mem p42 (cons_mem p38 none_mem)))))))) (by decide +kernel) (by decide +kernel)

theorem p47 : Nat.Prime 329452242943 :=
  prime_minus (a := 3) (bits := 39) [(2, 1), (3, 1), (1069, 1), (4969, 1)]
    (cons_mem (by norm_num) (cons_mem (by norm_num) (cons_mem (by norm_num) (cons_mem (by norm_num) none_mem)))) (by decide +kernel) (by decide +kernel)

theorem p46 : Nat.Prime 13836994203607 :=
  prime_minus (a := 3) (bits := 44) [(2, 1), (3, 1), (7, 1), (329452242943, 1)]
    (cons_mem (by norm_num) (cons_mem (by norm_num) (cons_mem (by norm_num) (cons_mem p47 none_mem)))) (by decide +kernel) (by decide +kernel)

theorem p48 : Nat.Prime 703721 :=
  prime_minus (a := 3) (bits := 20) [(2, 3), (5, 1), (73, 1)]
    (cons_mem (by norm_num) (cons_mem (by norm_num) (cons_mem (by norm_num) none_mem))) (by decide +kernel) (by decide +kernel)

theorem p49 : Nat.Prime 211219 :=
  prime_minus (a := 2) (bits := 18) [(2, 1), (3, 1), (7, 1), (47, 1)]
    (cons_mem (by norm_num) (cons_mem (by norm_num) (cons_mem (by norm_num) (cons_mem (by norm_num) none_mem)))) (by decide +kernel) (by decide +kernel)

theorem d277699_r : Nat.Prime 109145798891603384842981160219964689462416726859449 :=
  prime_minus (a := 31) (bits := 167) [(2, 3), (3, 1), (11, 1), (211219, 1), (703721, 1), (13836994203607, 1)]
    (cons_mem (by norm_num) (cons_mem (by norm_num) (cons_mem (by norm_num) (cons_mem p49 (cons_mem p48 (cons_mem p46 none_mem)))))) (by decide +kernel) (by decide +kernel)

theorem p52 : Nat.Prime 13958410764080569 :=
  prime_minus (a := 7) (bits := 54) [(2, 3), (3, 1), (47, 1), (1361, 1), (5647, 1)]
    (cons_mem (by norm_num) (cons_mem (by norm_num) (cons_mem (by norm_num) (cons_mem (by norm_num) (cons_mem (by norm_num) none_mem))))) (by decide +kernel) (by decide +kernel)

theorem p51 : Nat.Prime 3182517654210369733 :=
  prime_minus (a := 6) (bits := 62) [(2, 2), (3, 1), (19, 1), (13958410764080569, 1)]
    (cons_mem (by norm_num) (cons_mem (by norm_num) (cons_mem (by norm_num) (cons_mem p52 none_mem)))) (by decide +kernel) (by decide +kernel)

theorem d278027_r : Nat.Prime 2022674268913206606650600710650191056940162583652459219 :=
  prime_minus (a := 2) (bits := 181) [(2, 1), (3, 1), (7, 1), (101, 1), (353, 1), (1093, 1), (1297, 1), (5503, 1), (3182517654210369733, 1)]
    (cons_mem (by norm_num) (cons_mem (by norm_num) (cons_mem (by norm_num) (cons_mem (by norm_num) (cons_mem (by norm_num) (cons_mem (by norm_num) (cons_mem (by norm_num) (cons_mem (by norm_num) (cons_mem p51 none_mem))))))))) (by decide +kernel) (by decide +kernel)

theorem p54 : Nat.Prime 62169922665437 :=
  prime_minus (a := 2) (bits := 46) [(2, 2), (59, 1), (97, 1), (34127, 1)]
    (cons_mem (by norm_num) (cons_mem (by norm_num) (cons_mem (by norm_num) (cons_mem (by norm_num) none_mem)))) (by decide +kernel) (by decide +kernel)

theorem p55 : Nat.Prime 1776839540731 :=
  prime_minus (a := 3) (bits := 41) [(2, 1), (3, 1), (5, 1), (37, 1), (83, 1), (3559, 1)]
    (cons_mem (by norm_num) (cons_mem (by norm_num) (cons_mem (by norm_num) (cons_mem (by norm_num) (cons_mem (by norm_num) (cons_mem (by norm_num) none_mem)))))) (by decide +kernel) (by decide +kernel)

theorem a_q : Nat.Prime 8780710799663312522437781984754049815806883199414208211028653399266475630880222957078625179422662221423155858769582317459277713367317481324925129998224791 :=
  prime_plus (bits := 512)
    32935026027135818846958808044793634314579013962870383054705746617105055413992
    2
    (4052635753690759625740514762194176838064715322806557635859378491969142598867795210959365467425844102195302704047499531135051252323377299073042367691488366,
      6078953630536139438610772143291265257097072984209836453789067737953713898301692816439048201138766153292954056071249296702576878485065948609563551537232548)
    [(2, 3), (3, 1), (17, 1), (1776839540731, 1), (62169922665437, 1), (730750818665451621361119245571504901405976559617, 1)]
    (cons_mem (by norm_num) (cons_mem (by norm_num) (cons_mem (by norm_num) (cons_mem p55 (cons_mem p54 (cons_mem a_r none_mem)))))) (by decide +kernel) (by decide +kernel) (by decide) (by decide +kernel) (by decide +kernel)

theorem p57 : Nat.Prime 1442810787307 :=
  prime_minus (a := 2) (bits := 41) [(2, 1), (3, 1), (7, 1), (29, 1), (2089, 1)]
    (cons_mem (by norm_num) (cons_mem (by norm_num) (cons_mem (by norm_num) (cons_mem (by norm_num) (cons_mem (by norm_num) none_mem))))) (by decide +kernel) (by decide +kernel)

theorem e_q : Nat.Prime 7245986106510086080714203333362098431608853335867425877960916928496629182991629664903654100214900946450053872786629995869445693724001299041657434948257845644905153122838458864000479326695430719258600053239930483226650953770354174712511646273516974069245462534034085895319225452125649979474047163305307830001 :=
  prime_cube (a := 29) (bits := 1020)
    9378172214724211308026635223617134280496785942637747899220773368371015745777099684237093077023805524039100698909890000
    772643745562010079664990600642781824491644064697456132639930430894420319490533770747080216086978789092538856971916861273399543038148808198328507225294822766367668562755574867941831541458747
    699784159944499257471205179371750098766155723141381657507936708309900496934026506058024985134725649984267492392378746
    [(2, 4), (3, 2), (5, 4), (7, 1), (139, 2), (1442810787307, 1), (730750862221594424981965739670091261094297337857, 2)]
    (cons_mem (by norm_num) (cons_mem (by norm_num) (cons_mem (by norm_num) (cons_mem (by norm_num) (cons_mem (by norm_num) (cons_mem p57 (cons_mem e_r none_mem))))))) (by decide +kernel) (by decide +kernel) (by decide +kernel) (by decide +kernel) (by decide +kernel)

theorem p60 : Nat.Prime 38078129 :=
  prime_minus (a := 3) (bits := 26) [(2, 4), (11, 1), (19, 1), (59, 1)]
    (cons_mem (by norm_num) (cons_mem (by norm_num) (cons_mem (by norm_num) (cons_mem (by norm_num) none_mem)))) (by decide +kernel) (by decide +kernel)

theorem p59 : Nat.Prime 76156259 :=
  prime_minus (a := 2) (bits := 27) [(2, 1), (38078129, 1)]
    (cons_mem (by norm_num) (cons_mem p60 none_mem)) (by decide +kernel) (by decide +kernel)

theorem p61 : Nat.Prime 8512663 :=
  prime_minus (a := 3) (bits := 24) [(2, 1), (3, 1), (31, 1), (45767, 1)]
    (cons_mem (by norm_num) (cons_mem (by norm_num) (cons_mem (by norm_num) (cons_mem (by norm_num) none_mem)))) (by decide +kernel) (by decide +kernel)

theorem f_q : Nat.Prime 205523667896953300194896352429254920972540065223 :=
  prime_minus (a := 3) (bits := 158) [(2, 1), (3, 2), (7, 1), (29, 1), (59, 1), (8512663, 1), (76156259, 1), (9478548517, 1)]
    (cons_mem (by norm_num) (cons_mem (by norm_num) (cons_mem (by norm_num) (cons_mem (by norm_num) (cons_mem (by norm_num) (cons_mem p61 (cons_mem p59 (cons_mem p10 none_mem)))))))) (by decide +kernel) (by decide +kernel)

theorem p64 : Nat.Prime 25027129 :=
  prime_minus (a := 11) (bits := 25) [(2, 3), (3, 2), (7, 1), (17, 1)]
    (cons_mem (by norm_num) (cons_mem (by norm_num) (cons_mem (by norm_num) (cons_mem (by norm_num) none_mem)))) (by decide +kernel) (by decide +kernel)

theorem p63 : Nat.Prime 577676191579 :=
  prime_minus (a := 3) (bits := 40) [(2, 1), (3, 1), (3847, 1), (25027129, 1)]
    (cons_mem (by norm_num) (cons_mem (by norm_num) (cons_mem (by norm_num) (cons_mem p64 none_mem)))) (by decide +kernel) (by decide +kernel)

theorem p65 : Nat.Prime 178194007 :=
  prime_minus (a := 5) (bits := 28) [(2, 1), (3, 4), (619, 1)]
    (cons_mem (by norm_num) (cons_mem (by norm_num) (cons_mem (by norm_num) none_mem))) (by decide +kernel) (by decide +kernel)

theorem p66 : Nat.Prime 47900201 :=
  prime_minus (a := 3) (bits := 26) [(2, 3), (5, 2), (37, 1)]
    (cons_mem (by norm_num) (cons_mem (by norm_num) (cons_mem (by norm_num) none_mem))) (by decide +kernel) (by decide +kernel)

theorem g149_q : Nat.Prime 503189899097385532598615948567975432740967203 :=
  prime_minus (a := 5) (bits := 149) [(2, 1), (3, 2), (47900201, 1), (178194007, 1), (577676191579, 1)]
    (cons_mem (by norm_num) (cons_mem (by norm_num) (cons_mem p66 (cons_mem p65 (cons_mem p63 none_mem))))) (by decide +kernel) (by decide +kernel)

theorem p72 : Nat.Prime 316531 :=
  prime_minus (a := 2) (bits := 19) [(2, 1), (3, 2), (5, 1), (3517, 1)]
    (cons_mem (by norm_num) (cons_mem (by norm_num) (cons_mem (by norm_num) (cons_mem (by norm_num) none_mem)))) (by decide +kernel) (by decide +kernel)

theorem p71 : Nat.Prime 20891047 :=
  prime_minus (a := 3) (bits := 25) [(2, 1), (3, 1), (11, 1), (316531, 1)]
    (cons_mem (by norm_num) (cons_mem (by norm_num) (cons_mem (by norm_num) (cons_mem p72 none_mem)))) (by decide +kernel) (by decide +kernel)

theorem p70 : Nat.Prime 1342792936973 :=
  prime_minus (a := 2) (bits := 41) [(2, 2), (16069, 1), (20891047, 1)]
    (cons_mem (by norm_num) (cons_mem (by norm_num) (cons_mem p71 none_mem))) (by decide +kernel) (by decide +kernel)

theorem p69 : Nat.Prime 2685585873947 :=
  prime_minus (a := 2) (bits := 42) [(2, 1), (1342792936973, 1)]
    (cons_mem (by norm_num) (cons_mem p70 none_mem)) (by decide +kernel) (by decide +kernel)

theorem p68 : Nat.Prime 23660011549473071 :=
  prime_minus (a := 11) (bits := 55) [(2, 1), (5, 1), (881, 1), (2685585873947, 1)]
    (cons_mem (by norm_num) (cons_mem (by norm_num) (cons_mem (by norm_num) (cons_mem p69 none_mem)))) (by decide +kernel) (by decide +kernel)

theorem d159_q : Nat.Prime 625852803282871856053922297323874661378036491717 :=
  prime_minus (a := 2) (bits := 159) [(2, 2), (23, 2), (317, 2), (2293, 2), (23660011549473071, 2)]
    (cons_mem (by norm_num) (cons_mem (by norm_num) (cons_mem (by norm_num) (cons_mem (by norm_num) (cons_mem p68 none_mem))))) (by decide +kernel) (by decide +kernel)

theorem p76 : Nat.Prime 1386823 :=
  prime_minus (a := 3) (bits := 21) [(2, 1), (3, 1), (181, 1), (1277, 1)]
    (cons_mem (by norm_num) (cons_mem (by norm_num) (cons_mem (by norm_num) (cons_mem (by norm_num) none_mem)))) (by decide +kernel) (by decide +kernel)

theorem p77 : Nat.Prime 888661 :=
  prime_minus (a := 10) (bits := 20) [(2, 2), (3, 2), (5, 1), (4937, 1)]
    (cons_mem (by norm_num) (cons_mem (by norm_num) (cons_mem (by norm_num) (cons_mem (by norm_num) none_mem)))) (by decide +kernel) (by decide +kernel)

theorem p78 : Nat.Prime 310423 :=
  prime_minus (a := 5) (bits := 19) [(2, 1), (3, 1), (7, 1), (19, 1)]
    (cons_mem (by norm_num) (cons_mem (by norm_num) (cons_mem (by norm_num) (cons_mem (by norm_num) none_mem)))) (by decide +kernel) (by decide +kernel)

theorem p75 : Nat.Prime 2804710334735565332578484527 :=
  prime_minus (a := 3) (bits := 92) [(2, 1), (3, 1), (310423, 1), (888661, 1), (1386823, 1)]
    (cons_mem (by norm_num) (cons_mem (by norm_num) (cons_mem p78 (cons_mem p77 (cons_mem p76 none_mem))))) (by decide +kernel) (by decide +kernel)

theorem p74 : Nat.Prime 723615266361775855805249007967 :=
  prime_minus (a := 7) (bits := 100) [(2, 1), (3, 1), (43, 1), (2804710334735565332578484527, 1)]
    (cons_mem (by norm_num) (cons_mem (by norm_num) (cons_mem (by norm_num) (cons_mem p75 none_mem)))) (by decide +kernel) (by decide +kernel)

theorem d201_q : Nat.Prime 2094476214847295281570670320144695883131009753607350517892357 :=
  prime_minus (a := 2) (bits := 201) [(2, 2), (723615266361775855805249007967, 2)]
    (cons_mem (by norm_num) (cons_mem p74 none_mem)) (by decide +kernel) (by decide +kernel)

theorem d224_q : Nat.Prime 15028799613985034465755506450771565229282832217860390155996483840017 :=
  prime_minus (a := 5) (bits := 224) [(2, 4), (3, 4), (11, 2), (1699, 2), (15643, 2), (368343946437800525467643, 2)]
    (cons_mem (by norm_num) (cons_mem (by norm_num) (cons_mem (by norm_num) (cons_mem (by norm_num) (cons_mem (by norm_num) (cons_mem p32 none_mem)))))) (by decide +kernel) (by decide +kernel)

theorem p83 : Nat.Prime 110753 :=
  prime_minus (a := 3) (bits := 17) [(2, 5), (3461, 1)]
    (cons_mem (by norm_num) (cons_mem (by norm_num) none_mem)) (by decide +kernel) (by decide +kernel)

theorem p82 : Nat.Prime 16169939 :=
  prime_minus (a := 2) (bits := 24) [(2, 1), (73, 1), (110753, 1)]
    (cons_mem (by norm_num) (cons_mem (by norm_num) (cons_mem p83 none_mem))) (by decide +kernel) (by decide +kernel)

theorem p81 : Nat.Prime 187379477563144264127 :=
  prime_minus (a := 5) (bits := 68) [(2, 1), (29, 1), (47, 1), (67, 1), (16169939, 1)]
    (cons_mem (by norm_num) (cons_mem (by norm_num) (cons_mem (by norm_num) (cons_mem (by norm_num) (cons_mem p82 none_mem))))) (by decide +kernel) (by decide +kernel)

theorem d105171_q : Nat.Prime 90144054120102937439179516551801119443207521965651508326977 :=
  prime_minus (a := 5) (bits := 196) [(2, 6), (3, 2), (7, 2), (1367, 2), (6977, 2), (187379477563144264127, 2)]
    (cons_mem (by norm_num) (cons_mem (by norm_num) (cons_mem (by norm_num) (cons_mem (by norm_num) (cons_mem (by norm_num) (cons_mem p81 none_mem)))))) (by decide +kernel) (by decide +kernel)

theorem p87 : Nat.Prime 7973024797 :=
  prime_minus (a := 2) (bits := 33) [(2, 2), (3, 2), (11, 1), (19, 1), (23, 1)]
    (cons_mem (by norm_num) (cons_mem (by norm_num) (cons_mem (by norm_num) (cons_mem (by norm_num) (cons_mem (by norm_num) none_mem))))) (by decide +kernel) (by decide +kernel)

theorem p88 : Nat.Prime 79801003 :=
  prime_minus (a := 2) (bits := 27) [(2, 1), (3, 2), (269, 1), (16481, 1)]
    (cons_mem (by norm_num) (cons_mem (by norm_num) (cons_mem (by norm_num) (cons_mem (by norm_num) none_mem)))) (by decide +kernel) (by decide +kernel)

theorem p86 : Nat.Prime 11452596763400485039 :=
  prime_minus (a := 6) (bits := 64) [(2, 1), (3, 2), (79801003, 1), (7973024797, 1)]
    (cons_mem (by norm_num) (cons_mem (by norm_num) (cons_mem p88 (cons_mem p87 none_mem)))) (by decide +kernel) (by decide +kernel)

theorem p85 : Nat.Prime 311212864448644780449787 :=
  prime_minus (a := 2) (bits := 79) [(2, 1), (3, 1), (7, 1), (647, 1), (11452596763400485039, 1)]
    (cons_mem (by norm_num) (cons_mem (by norm_num) (cons_mem (by norm_num) (cons_mem (by norm_num) (cons_mem p86 none_mem))))) (by decide +kernel) (by decide +kernel)

theorem d277699_q : Nat.Prime 24994387946177175129042685848468049026804978919305617 :=
  prime_minus (a := 3) (bits := 175) [(2, 4), (127, 2), (311212864448644780449787, 2)]
    (cons_mem (by norm_num) (cons_mem (by norm_num) (cons_mem p85 none_mem))) (by decide +kernel) (by decide +kernel)

theorem p90 : Nat.Prime 108023793084275317 :=
  prime_minus (a := 2) (bits := 57) [(2, 2), (3, 1), (8467, 1), (67271, 1)]
    (cons_mem (by norm_num) (cons_mem (by norm_num) (cons_mem (by norm_num) (cons_mem (by norm_num) none_mem)))) (by decide +kernel) (by decide +kernel)

theorem p91 : Nat.Prime 896543 :=
  prime_minus (a := 5) (bits := 20) [(2, 1), (113, 1), (3967, 1)]
    (cons_mem (by norm_num) (cons_mem (by norm_num) (cons_mem (by norm_num) none_mem))) (by decide +kernel) (by decide +kernel)

theorem d278027_q : Nat.Prime 1025495854338995749571854560267623501674077942914916484097 :=
  prime_minus (a := 3) (bits := 190) [(2, 10), (10333, 2), (896543, 2), (108023793084275317, 2)]
    (cons_mem (by norm_num) (cons_mem (by norm_num) (cons_mem p91 (cons_mem p90 none_mem)))) (by decide +kernel) (by decide +kernel)

end Pbc.Shipped

import Verif.Lemmas.ShippedPrimes

/-! # Certificates for the primes behind `e.param` and `i.param` -/

set_option autoImplicit false
set_option linter.style.longLine false

namespace Pbc.Shipped

open Pbc.Certify

theorem w5 : Nat.Prime 787217 :=
  prime_minus (a := 3) (bits := 20) [(2, 4), (49201, 1)]
    (cons_mem (by norm_num) (cons_mem (by norm_num) none_mem)) (by decide +kernel) (by decide +kernel)

theorem w4 : Nat.Prime 62977361 :=
  prime_minus (a := 3) (bits := 26) [(2, 4), (5, 1), (787217, 1)]
    (cons_mem (by norm_num) (cons_mem (by norm_num) (cons_mem w5 none_mem))) (by decide +kernel) (by decide +kernel)

theorem w3 : Nat.Prime 140943333919 :=
  prime_minus (a := 6) (bits := 38) [(2, 1), (3, 1), (373, 1), (62977361, 1)]
    (cons_mem (by norm_num) (cons_mem (by norm_num) (cons_mem (by norm_num) (cons_mem w4 none_mem)))) (by decide +kernel) (by decide +kernel)

theorem w2 : Nat.Prime 53816717359959783701 :=
  prime_minus (a := 3) (bits := 66) [(2, 2), (5, 2), (991, 1), (3853, 1), (140943333919, 1)]
    (cons_mem (by norm_num) (cons_mem (by norm_num) (cons_mem (by norm_num) (cons_mem (by norm_num) (cons_mem w3 none_mem))))) (by decide +kernel) (by decide +kernel)

theorem w1 : Nat.Prime 207732529009444765085861 :=
  prime_minus (a := 2) (bits := 78) [(2, 2), (5, 1), (193, 1), (53816717359959783701, 1)]
    (cons_mem (by norm_num) (cons_mem (by norm_num) (cons_mem (by norm_num) (cons_mem w2 none_mem)))) (by decide +kernel) (by decide +kernel)

theorem w6 : Nat.Prime 443759 :=
  prime_minus (a := 7) (bits := 19) [(2, 1), (7, 1), (29, 1), (1093, 1)]
    (cons_mem (by norm_num) (cons_mem (by norm_num) (cons_mem (by norm_num) (cons_mem (by norm_num) none_mem)))) (by decide +kernel) (by decide +kernel)

theorem e_l : Nat.Prime 92987685970879442438435542470825128450626716060977046386033320841 :=
  prime_minus (a := 3) (bits := 216) [(2, 3), (5, 1), (617, 1), (2381, 1), (443759, 1), (207732529009444765085861, 1)]
    (cons_mem (by norm_num) (cons_mem (by norm_num) (cons_mem (by norm_num) (cons_mem (by norm_num) (cons_mem w6 (cons_mem w1 none_mem)))))) (by decide +kernel) (by decide +kernel)

theorem i_n : Nat.Prime 2726865189058261010774960798134976187171462721 :=
  prime_minus (a := 11) (bits := 151) [(2, 6), (3, 1), (5, 1), (13, 1), (17, 1), (41, 1), (43, 1), (73, 1), (97, 1), (193, 1), (577, 1), (739, 1), (769, 1)]
    (cons_mem (by norm_num) (cons_mem (by norm_num) (cons_mem (by norm_num) (cons_mem (by norm_num) (cons_mem (by norm_num) (cons_mem (by norm_num) (cons_mem (by norm_num) (cons_mem (by norm_num) (cons_mem (by norm_num) (cons_mem (by norm_num) (cons_mem (by norm_num) (cons_mem (by norm_num) (cons_mem (by norm_num) none_mem))))))))))))) (by decide +kernel) (by decide +kernel)

end Pbc.Shipped

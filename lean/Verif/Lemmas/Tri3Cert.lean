import Verif.Lemmas.Tri3

/-!
# Certificates for the trinomials of the type I parameters
-/

set_option autoImplicit false
set_option maxRecDepth 20000
set_option maxHeartbeats 4000000

namespace Tri3

open Pbc.Ternary (trinomial)

theorem irreducible_97 : Irreducible (trinomial 97 12) :=
  irreducible_of_check (K := 4) (L := [(1, ⟨0x800, 0x1aaaaaaaaaaaaaaaaaaaaa7ff⟩)]) (by decide) (by decide) (by decide +kernel) (by decide +kernel)

theorem irreducible_199 : Irreducible (trinomial 199 164) :=
  irreducible_of_check (K := 13) (L := [(1, ⟨0x80000000000000000000000000000000000000000, 0x6aaaaaaaa7ffffffffffffffffffffffffffffffffffffffff⟩)]) (by decide) (by decide) (by decide +kernel) (by decide +kernel)

theorem irreducible_235 : Irreducible (trinomial 235 26) :=
  irreducible_of_check (K := 4) (L := [(5, ⟨0x452063447a0ce060a2fa2840a1b065041ac212a022c50388a0a40154886, 0x200c08b881800a9c1c04c2194e47825b240165449d38e05500025628650⟩),
    (47, ⟨0x681096c1400538415220701674c2040c14385acc0860238615c4069a745, 0x54c2108b28a8386a0438dc0810db15261c60533e51c54490a0279000b2⟩)]) (by decide) (by decide) (by decide +kernel) (by decide +kernel)

theorem irreducible_385 : Irreducible (trinomial 385 22) :=
  irreducible_of_check (K := 4) (L := [(35, ⟨0x8010000000080000000400801002000008010020000000100000000000002000008000000000000000000000, 0x1002000000000020040000000200000000000000000000000000080000000000000000000000000020040000000200000⟩),
    (55, ⟨0x8010020040000000000400800002000008000000000080000000400000000004000000000000000000000000, 0x2000000000000000000100200000001000004000010000040000000000000801002000000010020000080000200400⟩),
    (77, ⟨0x4905014284604526e18640012c866b208a690c0010442d458a04d716a172d8705241480c51161e0421b21681804d801, 0xb14b884ac729caa4806393914d30114da0016d07b09a240b240f120a14004270584a600c2a2a8e1d3d009604447823b6⟩)]) (by decide) (by decide) (by decide +kernel) (by decide +kernel)

theorem irreducible_337 : Irreducible (trinomial 337 30) :=
  irreducible_of_check (K := 4) (L := [(1, ⟨0x20000000, 0x1aaaaaaaaaaaaaaaaaaaaaaaaaaaaaaaaaaaaaaaaaaaaaaaaaaaaaaaaaaaaaaaaaaaaaaaaaaaa9fffffff⟩)]) (by decide) (by decide) (by decide +kernel) (by decide +kernel)

theorem irreducible_373 : Irreducible (trinomial 373 198) :=
  irreducible_of_check (K := 6) (L := [(1, ⟨0x20000000000000000000000000000000000000000000000000, 0x1aaaaaaaaaaaaaaaaaaaaaaaaaaaaaaaaaaaaaaaaaaa9fffffffffffffffffffffffffffffffffffffffffffffffff⟩)]) (by decide) (by decide) (by decide +kernel) (by decide +kernel)

theorem irreducible_395 : Irreducible (trinomial 395 338) :=
  irreducible_of_check (K := 15) (L := [(5, ⟨0x1210014ca347b07a8a8b1204b3420839088961490800a651a3d83b11001c88060799f00002c6a2a2c4812cd0820e4222585, 0x94b161248b84a00155420b84028370277469a84a58b09245c2500c86fc266884802050c48380555082e100a0dc09dd1a6a⟩),
    (79, ⟨0x55081a125f26bde4542490ed3560a0b8b58a30225aef4b0418831b8424863145901a40d9002a2da8183710227587062c808, 0x22d4c1e18011420b8b934f10821659030024018120108043a12cc47a99084a3a6f0532208f05d20484400d9c02000012794⟩)]) (by decide) (by decide) (by decide +kernel) (by decide +kernel)

theorem irreducible_433 : Irreducible (trinomial 433 120) :=
  irreducible_of_check (K := 4) (L := [(1, ⟨0x800000000000000000000000000000, 0x1aaaaaaaaaaaaaaaaaaaaaaaaaaaaaaaaaaaaaaaaaaaaaaaaaaaaaaaaaaaaaaaaaaaaaaaaaaaaaa7fffffffffffffffffffffffffffff⟩)]) (by decide) (by decide) (by decide +kernel) (by decide +kernel)

theorem irreducible_467 : Irreducible (trinomial 467 48) :=
  irreducible_of_check (K := 4) (L := [(1, ⟨0x800000000000, 0x6aaaaaaaaaaaaaaaaaaaaaaaaaaaaaaaaaaaaaaaaaaaaaaaaaaaaaaaaaaaaaaaaaaaaaaaaaaaaaaaaaaaaaaaaaaaaaaaaaaaaaaaa7fffffffffff⟩)]) (by decide) (by decide) (by decide +kernel) (by decide +kernel)

theorem irreducible_503 : Irreducible (trinomial 503 104) :=
  irreducible_of_check (K := 4) (L := [(1, ⟨0x80000000000000000000000000, 0x6aaaaaaaaaaaaaaaaaaaaaaaaaaaaaaaaaaaaaaaaaaaaaaaaaaaaaaaaaaaaaaaaaaaaaaaaaaaaaaaaaaaaaaaaaaaaaaaaaaa7fffffffffffffffffffffffff⟩)]) (by decide) (by decide) (by decide +kernel) (by decide +kernel)

theorem irreducible_509 : Irreducible (trinomial 509 358) :=
  irreducible_of_check (K := 8) (L := [(1, ⟨0x200000000000000000000000000000000000000000000000000000000000000000000000000000000000000000, 0x1aaaaaaaaaaaaaaaaaaaaaaaaaaaaaaaaaaaaa9fffffffffffffffffffffffffffffffffffffffffffffffffffffffffffffffffffffffffffffffffffffffff⟩)]) (by decide) (by decide) (by decide +kernel) (by decide +kernel)

theorem irreducible_617 : Irreducible (trinomial 617 88) :=
  irreducible_of_check (K := 4) (L := [(1, ⟨0x8000000000000000000000, 0x1aaaaaaaaaaaaaaaaaaaaaaaaaaaaaaaaaaaaaaaaaaaaaaaaaaaaaaaaaaaaaaaaaaaaaaaaaaaaaaaaaaaaaaaaaaaaaaaaaaaaaaaaaaaaaaaaaaaaaaaaaaaaaaaaaaaa7fffffffffffffffffffff⟩)]) (by decide) (by decide) (by decide +kernel) (by decide +kernel)

end Tri3

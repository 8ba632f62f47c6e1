import Verif.Proofs.Session

/-! # The fixed-size library networks are well-formed (generated by tools/gen_libnets.py) -/
set_option linter.unusedSectionVars false
set_option maxRecDepth 20000
set_option maxHeartbeats 1000000
namespace Axon
open Spec
variable {K : Type*} [Field K] [LinearOrder K] [IsStrictOrderedRing K] [FloorRing K]

theorem signedMemory_skel {K : Type*} [Field K] (e : Encoder K) (n) : skel (signedMemoryNetwork e n World.empty).2 =
      (16, 2, [(1, 15), (1, 14), (1, 13), (1, 12), (1, 11), (1, 10), (1, 9), (1, 8), (0, 7), (0, 6), (0, 5),
      (0, 4), (0, 3), (0, 2), (0, 1), (0, 0)], [(0, 1)], [(15, 7, .V), (3, 5, .V), (2, 6, .V), (15, 6, .V),
      (15, 5, .V), (4, 13, .V), (1, 8, .V), (0, 8, .V), (4, 3, .V), (4, 2, .V), (3, 2, .V), (2, 3, .V), (1, 2,
      .V), (0, 3, .V), (1, 3, .V), (0, 2, .V), (11, 14, .V), (12, 15, .V), (13, 15, .V), (13, 12, .ge), (11,
      12, .ge), (10, 12, .ge), (9, 11, .ge), (9, 9, .V), (8, 10, .V), (8, 9, .V)]) := rfl

theorem signedMemory_ok0 : BlockOK (signedMemoryNetwork (⟨10, 100⟩ : Encoder ℚ) none World.empty).2 :=
  blockOK_of_check (by decide +kernel)

theorem signedMemory_lib (e : Encoder K) (n) : LibOK (signedMemoryNetwork e n World.empty).2 16 :=
  LibOK.of (blockOK_skel ((signedMemory_skel e n).trans (signedMemory_skel _ _).symm) signedMemory_ok0) rfl

theorem subtractor_skel {K : Type*} [Field K] (e : Encoder K) (n) : skel (subtractorNetwork e n World.empty).2 =
      (9, 1, [(0, 8), (0, 7), (0, 6), (0, 5), (0, 4), (0, 3), (0, 2), (0, 1), (0, 0)], [], [(8, 5, .V), (8, 7,
      .V), (3, 8, .V), (2, 8, .V), (3, 8, .V), (2, 8, .V), (8, 8, .V), (7, 4, .V), (6, 5, .V), (4, 6, .V), (5,
      7, .V), (2, 7, .V), (3, 6, .V), (3, 7, .V), (2, 6, .V), (3, 4, .V), (2, 5, .V), (3, 5, .V), (2, 4, .V),
      (1, 3, .V), (0, 2, .V)]) := rfl

theorem subtractor_ok0 : BlockOK (subtractorNetwork (⟨10, 100⟩ : Encoder ℚ) none World.empty).2 :=
  blockOK_of_check (by decide +kernel)

theorem subtractor_lib (e : Encoder K) (n) : LibOK (subtractorNetwork e n World.empty).2 9 :=
  LibOK.of (blockOK_skel ((subtractor_skel e n).trans (subtractor_skel _ _).symm) subtractor_ok0) rfl

theorem log_skel {K : Type*} [Field K] (e : Encoder K) (n) : skel (logNetwork e n World.empty).2 =
      (5, 1, [(0, 4), (0, 3), (0, 2), (0, 1), (0, 0)], [], [(2, 4, .V), (3, 4, .V), (2, 3, .gf), (2, 3, .ge),
      (2, 3, .gate), (1, 3, .ge), (1, 1, .V), (0, 2, .V), (0, 1, .V)]) := rfl

theorem log_ok0 : BlockOK (logNetwork (⟨10, 100⟩ : Encoder ℚ) none World.empty).2 :=
  blockOK_of_check (by decide +kernel)

theorem log_lib (e : Encoder K) (n) : LibOK (logNetwork e n World.empty).2 5 :=
  LibOK.of (blockOK_skel ((log_skel e n).trans (log_skel _ _).symm) log_ok0) rfl

theorem exponential_skel {K : Type*} [Field K] (e : Encoder K) (n) : skel (exponentialNetwork e n World.empty).2 =
      (5, 1, [(0, 4), (0, 3), (0, 2), (0, 1), (0, 0)], [], [(2, 4, .V), (3, 4, .V), (2, 3, .ge), (2, 3, .gate),
      (1, 3, .gate), (1, 3, .gf), (1, 1, .V), (0, 2, .V), (0, 1, .V)]) := rfl

theorem exponential_ok0 : BlockOK (exponentialNetwork (⟨10, 100⟩ : Encoder ℚ) none World.empty).2 :=
  blockOK_of_check (by decide +kernel)

theorem exponential_lib (e : Encoder K) (n) : LibOK (exponentialNetwork e n World.empty).2 5 :=
  LibOK.of (blockOK_skel ((exponential_skel e n).trans (exponential_skel _ _).symm) exponential_ok0) rfl

theorem multiplier_skel {K : Type*} [Field K] (e : Encoder K) (n) : skel (multiplierNetwork e n World.empty).2 =
      (12, 1, [(0, 11), (0, 10), (0, 9), (0, 8), (0, 7), (0, 6), (0, 5), (0, 4), (0, 3), (0, 2), (0, 1), (0,
      0)], [], [(5, 11, .V), (5, 11, .V), (11, 5, .V), (1, 5, .V), (0, 5, .V), (10, 11, .V), (9, 10, .gf), (9,
      10, .gate), (9, 4, .gate), (9, 4, .gf), (8, 11, .V), (8, 10, .ge), (8, 10, .gate), (4, 8, .gate), (4, 8,
      .gf), (7, 9, .V), (7, 8, .ge), (6, 8, .ge), (6, 6, .V), (1, 7, .V), (1, 6, .V), (3, 9, .V), (3, 4, .ge),
      (2, 4, .ge), (2, 2, .V), (0, 3, .V), (0, 2, .V)]) := rfl

theorem multiplier_ok0 : BlockOK (multiplierNetwork (⟨10, 100⟩ : Encoder ℚ) none World.empty).2 :=
  blockOK_of_check (by decide +kernel)

theorem multiplier_lib (e : Encoder K) (n) : LibOK (multiplierNetwork e n World.empty).2 12 :=
  LibOK.of (blockOK_skel ((multiplier_skel e n).trans (multiplier_skel _ _).symm) multiplier_ok0) rfl

theorem scalarMultiplier_skel {K : Type*} [Field K] (f : K) (e : Encoder K) (n) : skel (scalarMultiplierNetwork f e n World.empty).2 =
      (6, 1, [(0, 5), (0, 4), (0, 3), (0, 2), (0, 1), (0, 0)], [], [(3, 5, .V), (3, 4, .ge), (4, 5, .V), (3, 4,
      .ge), (2, 4, .ge), (1, 3, .ge), (1, 1, .V), (0, 2, .V), (0, 1, .V)]) := rfl

theorem scalarMultiplier_ok0 : BlockOK (scalarMultiplierNetwork 1 (⟨10, 100⟩ : Encoder ℚ) none World.empty).2 :=
  blockOK_of_check (by decide +kernel)

theorem scalarMultiplier_lib (f : K) (e : Encoder K) (n) : LibOK (scalarMultiplierNetwork f e n World.empty).2 6 :=
  LibOK.of (blockOK_skel ((scalarMultiplier_skel f e n).trans (scalarMultiplier_skel 1 _ _).symm) scalarMultiplier_ok0) rfl

theorem signedMultiplier_skel {K : Type*} [Field K] (e : Encoder K) (n) : skel (signedMultiplierNetwork e n World.empty).2 =
      (23, 2, [(0, 22), (0, 21), (0, 20), (0, 19), (0, 18), (0, 17), (0, 16), (0, 15), (0, 14), (0, 13), (0,
      12), (1, 11), (1, 10), (1, 9), (1, 8), (1, 7), (1, 6), (1, 5), (1, 4), (1, 3), (1, 2), (1, 1), (1, 0)],
      [(0, 1)], [(18, 16, .V), (18, 16, .V), (17, 18, .V), (16, 18, .V), (15, 18, .V), (14, 18, .V), (13, 18,
      .V), (12, 18, .V), (22, 17, .V), (21, 16, .V), (20, 16, .V), (19, 17, .V), (11, 17, .V), (11, 16, .V),
      (22, 21, .V), (22, 20, .V), (21, 22, .V), (21, 19, .V), (20, 22, .V), (20, 19, .V), (19, 21, .V), (19,
      20, .V), (15, 22, .V), (15, 21, .V), (14, 20, .V), (14, 19, .V), (13, 22, .V), (13, 20, .V), (12, 21,
      .V), (12, 19, .V), (15, 1, .V), (14, 1, .V), (13, 0, .V), (12, 0, .V), (5, 11, .V), (5, 11, .V), (11, 5,
      .V), (1, 5, .V), (0, 5, .V), (10, 11, .V), (9, 10, .gf), (9, 10, .gate), (9, 4, .gate), (9, 4, .gf), (8,
      11, .V), (8, 10, .ge), (8, 10, .gate), (4, 8, .gate), (4, 8, .gf), (7, 9, .V), (7, 8, .ge), (6, 8, .ge),
      (6, 6, .V), (1, 7, .V), (1, 6, .V), (3, 9, .V), (3, 4, .ge), (2, 4, .ge), (2, 2, .V), (0, 3, .V), (0, 2,
      .V)]) := rfl

theorem signedMultiplier_ok0 : BlockOK (signedMultiplierNetwork (⟨10, 100⟩ : Encoder ℚ) none World.empty).2 :=
  blockOK_of_check (by decide +kernel)

theorem signedMultiplier_lib (e : Encoder K) (n) : LibOK (signedMultiplierNetwork e n World.empty).2 23 :=
  LibOK.of (blockOK_skel ((signedMultiplier_skel e n).trans (signedMultiplier_skel _ _).symm) signedMultiplier_ok0) rfl

theorem div_skel {K : Type*} [Field K] (e : Encoder K) (n) : skel (divNetwork e n World.empty).2 =
      (25, 4, [(3, 24), (3, 23), (3, 22), (3, 21), (3, 20), (2, 19), (2, 18), (2, 17), (2, 16), (2, 15), (2,
      14), (2, 13), (2, 12), (2, 11), (1, 10), (1, 9), (1, 8), (1, 7), (1, 6), (1, 5), (1, 4), (1, 3), (1, 2),
      (1, 1), (1, 0)], [(0, 3), (0, 2), (0, 1)], [(17, 20, .V), (9, 12, .V), (4, 11, .V), (22, 24, .V), (23,
      24, .V), (22, 23, .ge), (22, 23, .gate), (21, 23, .gate), (21, 23, .gf), (21, 21, .V), (20, 22, .V), (20,
      21, .V), (19, 16, .V), (19, 18, .V), (14, 19, .V), (13, 19, .V), (14, 19, .V), (13, 19, .V), (19, 19,
      .V), (18, 15, .V), (17, 16, .V), (15, 17, .V), (16, 18, .V), (13, 18, .V), (14, 17, .V), (14, 18, .V),
      (13, 17, .V), (14, 15, .V), (13, 16, .V), (14, 16, .V), (13, 15, .V), (12, 14, .V), (11, 13, .V), (8, 9,
      .V), (10, 8, .gate), (10, 8, .gf), (3, 4, .V), (10, 3, .gate), (10, 3, .gf), (10, 9, .V), (10, 4, .V),
      (7, 10, .V), (2, 10, .V), (7, 8, .ge), (6, 8, .ge), (5, 7, .V), (6, 6, .V), (5, 6, .V), (2, 3, .ge), (1,
      3, .ge), (0, 2, .V), (1, 1, .V), (0, 1, .V)]) := rfl

theorem div_ok0 : BlockOK (divNetwork (⟨10, 100⟩ : Encoder ℚ) none World.empty).2 :=
  blockOK_of_check (by decide +kernel)

theorem div_lib (e : Encoder K) (n) : LibOK (divNetwork e n World.empty).2 25 :=
  LibOK.of (blockOK_skel ((div_skel e n).trans (div_skel _ _).symm) div_ok0) rfl

end Axon

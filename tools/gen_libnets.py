"""Generates lean/Verif/Proofs/LibNets.lean from the skeletons printed by an #eval script (skel.txt)."""
import sys, textwrap
out=['''import Verif.Proofs.Session

/-! # The fixed-size library networks are well-formed (generated by tools/gen_libnets.py) -/
set_option linter.unusedSectionVars false
set_option maxRecDepth 20000
set_option maxHeartbeats 1000000
namespace Axon
open Spec
variable {K : Type*} [Field K] [LinearOrder K] [IsStrictOrderedRing K] [FloorRing K]
''']
ex={'scalarMultiplier':('(f : K) ','f ','1 ')}
for blk in open(sys.argv[1]).read().split('@@')[1:]:
    nm,lit=blk.split('\n',1); lit=lit.strip()
    n=lit[1:].split(',')[0]
    b,a,a0=ex.get(nm,('','',''))
    lit='\n      '.join(textwrap.wrap(lit,105))
    out.append(f'''
theorem {nm}_skel {{K : Type*}} [Field K] {b}(e : Encoder K) (n) : skel ({nm}Network {a}e n World.empty).2 =
      {lit} := rfl

theorem {nm}_ok0 : BlockOK ({nm}Network {a0}(⟨10, 100⟩ : Encoder ℚ) none World.empty).2 :=
  blockOK_of_check (by decide +kernel)

theorem {nm}_lib {b}(e : Encoder K) (n) : LibOK ({nm}Network {a}e n World.empty).2 {n} :=
  LibOK.of (blockOK_skel (({nm}_skel {a}e n).trans ({nm}_skel {a0}_ _).symm) {nm}_ok0) rfl
''')
out.append('\nend Axon\n')
open('/verif/lean/Verif/Proofs/LibNets.lean','w').write(''.join(out))

import Verif.Props.VerifierPoints
import Verif.Props.SwToTe
import Verif.Props.Msm
import Verif.Util.WeierLadder
import Verif.Props.TranscriptCounter

/-!
# The group `G1` of BLS12-377 and a hash, for the example of C83

The subgroup of prime order with its conversion to twisted Edwards form, and the challenge `ζ` of the shipped Rescue
transcript for a key and a proof whose commitments are the generator.
-/

set_option linter.unusedSectionVars false

namespace Verif.Props.VerifierPoints

open Verif.Circuit Verif.Circuit.VerifierPoly Verif.Circuit.TranscriptVar Verif.Circuit.VerifierAgg Verif.Props.VerifierCircuit
open Verif.Props.TranscriptCircuit Verif.Plonk Verif.Props.Emulated Verif.Props.Msm Verif.Props.Ecc
open Verif.Rescue (Vec Consts p_fq377 p_ed377 fq377)

/-! ## The group -/

/-- the generator of `G1` -/
def genX : ZMod p_fq377 := 81937999373150964239938255573465948239988671502647976594219695644855304257327692006745978603320413799295628339695
def genY : ZMod p_fq377 := 241266749859715473739788878240585681733927191168601896383759122102112907357779751001206799952863815012735208165030

theorem gen_on : (curve p_fq377 0 1).Nonsingular genX genY :=
  nonsingular_of (by decide +kernel) (by decide +kernel) (by decide +kernel)

def genSw : G377 := .some genX genY gen_on

theorem bits_r : bitsBE (bitsOf 252 (p_ed377 - 1 - 2 ^ 252)) 1 + 1 = p_ed377 := by decide +kernel

theorem gen_order : p_ed377 • genSw = 0 := by
  rw [← bits_r]
  exact smul_zero_of_jac gen_on (bitsOf 252 (p_ed377 - 1 - 2 ^ 252)) (by decide +kernel) (by decide +kernel) (by decide +kernel)

/-- the points of order `r` (and infinity) -/
def g1Sub : AddSubgroup G377 := (nsmulAddMonoidHom p_ed377 : G377 →+ G377).ker

abbrev G1 := g1Sub

theorem g1_order (P : G1) : p_ed377 • P = 0 := Subtype.ext (by
  have : p_ed377 • P.1 = 0 := P.2
  rw [AddSubgroup.coe_nsmul, this]
  rfl)

noncomputable instance : Module (ZMod p_ed377) G1 := AddCommGroup.zmodModule g1_order

noncomputable instance : DecidableEq G1 := Classical.decEq _

theorem g1_odd (P : G1) : OddOrder P.1 := ⟨p_ed377, by decide +kernel, P.2⟩

/-- the conversion to twisted Edwards form -/
noncomputable def tau : G1 →+ te377.Pt where
  toFun P := ⟨toTe (conv377.s : ℕ) (-1) (conv377.beta : ℕ) P.1, P.1, g1_odd P, rfl⟩
  map_zero' := Subtype.ext rfl
  map_add' P Q := Subtype.ext (params377.odd_add (g1_odd P) (g1_odd Q)).symm

/-- the generator -/
def gen : G1 := ⟨genSw, gen_order⟩

theorem tau_gen : (tau gen).1 = g1G := by
  have h : swToTe (q := p_fq377) conv377 (enc genSw) = some g1G := by decide +kernel
  exact ((swToTe_eq _ _).1 h).2

theorem tau_zero (P : G1) : (tau P).1 = (0, 1) ↔ P = 0 := by
  constructor
  · intro h
    refine Subtype.ext (params377.toTe_inj (params377.odd_defined (g1_odd P)) (params377.odd_defined OddOrder.zero) ?_)
    exact h
  · rintro rfl
    rfl

/-! ## The challenge -/

/-- the next state on numbers -/
def nextNat (s : Vec ℕ) (l : List ℕ) : Vec ℕ :=
  let S := Rescue.absorbNat p_fq377 fq377 (Rescue.bitPadNat (s.elems ++ l))
  ⟨S.a, S.b, S.c, (Rescue.permNat p_fq377 fq377 S).a⟩

theorem nextNat_cast {f : Vec (ZMod p_fq377) → Vec (ZMod p_fq377)} (h : HashOk fq377 f) (s : Vec ℕ) (l : List ℕ) :
    nextState f (Rescue.ofBytes s) (l.map fun n : ℕ => (n : ZMod p_fq377)) = Rescue.ofBytes (nextNat s l) := by
  have e : (Rescue.ofBytes s : Vec (ZMod p_fq377)).elems ++ l.map (fun n : ℕ => (n : ZMod p_fq377)) =
      (s.elems ++ l).map fun n : ℕ => (n : ZMod p_fq377) := by
    simp [Rescue.ofBytes, Vec.elems, Vec.map]
  obtain ⟨d, h1, -, h2⟩ := Rescue.C40_variable_total f 4 ((s.elems ++ l).map fun n : ℕ => (n : ZMod p_fq377))
  rw [Rescue.bitPadNat_cast, Rescue.absorbNat_cast h.eval (by decide +kernel) (by decide +kernel)] at h2
  have h3 : d = [_, _, _, _] := h2
  unfold nextState
  rw [e, h1, h3, Rescue.permNat_cast h.eval (by decide +kernel) (by decide +kernel)]
  unfold nextNat
  generalize Rescue.absorbNat p_fq377 fq377 (Rescue.bitPadNat (s.elems ++ l)) = A
  simp only
  generalize Rescue.permNat p_fq377 fq377 A = B
  rfl

/-- the coordinates of the generator -/
def gN : List ℕ :=
  [71222569531709137229370268896323705690285216175189308202338047559628438110820800641278662592954630774340654489393,
   6177051365529633638563236407038680211609544222665285371549726196884440490905471891908272386851767077598415378235]

/-- the coordinates of `n` commitments -/
def gNs (n : ℕ) : List ℕ := (List.replicate n gN).flatten

/-- the numbers absorbed before `β`: 13 selectors, 5 permutation polynomials, the inputs and 5 wires -/
def exNumbers : List ℕ := gNs 13 ++ gNs 5 ++ [7, 7] ++ gNs 5

def exS1 : Vec ℕ := ⟨24790184196535728273026313493572105017721240107273504800720877014460370514068730847208521591990029121757497723373,
  119174406751590757221212125899324800904798310673078968270064190861847946588232738767416170097552859127605764365260,
  189832890026618707409020271717366430188937084618186261746131432917710455004855999892157311601093172964446194298365,
  38384850875056696900599025514021618414236725309645395693061477696438067613593332097462024856658044532499529382422⟩

def exS2 : Vec ℕ := ⟨227431656472541887869083687604774742518197655824086551900189716456435878926171635506370279622105122041751373099318,
  105259880385651652264827391381014417842195595448377740356101187838802620950999485183900749284733372124929978653581,
  231823113396337366920478522548575974165509171321676337290562752613612957775426644462623782242325356469894437623653,
  143532485440086754125700571906481245489526648461154183896100709529859157203030930145287448795405240148024327427810⟩

def exS3 : Vec ℕ := ⟨31355613394599469580422707528182968720764757964885504821757892491176963589357923870772999761069985021486399216485,
  197255031039084986354991178685536483797740557563910370135634543923079249064748784370614073021006960785385458043357,
  206579547536294996554383902620148047657560454342232957595754695808699016733066378750074912158554759506088033657609,
  10038220383562823963700978029129070410509442023932660078994401556419473719039253170103782192789756184986913495212⟩

def exH : ℕ := 151078490098100849788563398591895137335291963370440318239502097587762803073424423590360971936066849865490365546166

theorem exS1_eq : nextNat ⟨0, 0, 0, 0⟩ exNumbers = exS1 := by decide +kernel
theorem exS2_eq : nextNat exS1 [] = exS2 := by decide +kernel
theorem exS3_eq : nextNat exS2 (gNs 1) = exS3 := by decide +kernel
theorem exH_eq : (nextNat exS3 (gNs 5)).a = exH := by decide +kernel

theorem hash_zeta {f : Vec (ZMod p_fq377) → Vec (ZMod p_fq377)} (h : HashOk fq377 f) {D : TranscriptVar.Data (ZMod p_fq377)}
    (h0 : D.d0 = exNumbers.map fun n : ℕ => (n : ZMod p_fq377)) (h1 : D.d1 = (gNs 1).map fun n : ℕ => (n : ZMod p_fq377))
    (h2 : D.d2 = (gNs 5).map fun n : ℕ => (n : ZMod p_fq377)) : (hashes f D).ζ = ((exH : ℕ) : ZMod p_fq377) := by
  show (nextState f (nextState f (nextState f (nextState f Rescue.zeroVec D.d0) []) D.d1) D.d2).a = _
  have z : (Rescue.zeroVec : Vec (ZMod p_fq377)) = Rescue.ofBytes ⟨0, 0, 0, 0⟩ := by
    simp [Rescue.zeroVec, Rescue.ofBytes, Vec.map]
  have s2 := nextNat_cast h exS1 []
  rw [List.map_nil] at s2
  rw [z, h0, h1, h2, nextNat_cast h, exS1_eq, s2, exS2_eq, nextNat_cast h, exS3_eq, nextNat_cast h, ← exH_eq]
  rfl

end Verif.Props.VerifierPoints

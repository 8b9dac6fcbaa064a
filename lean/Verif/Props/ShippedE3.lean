import Verif.Props.ShippedE1
import Verif.Props.ShippedE2

/-! # C140, type E: the file `e.param` -/

set_option autoImplicit false
set_option linter.style.longLine false

namespace Pbc.Shipped

open Pbc.Param Pbc.Certify

theorem e_good : GoodE 7245986106510086080714203333362098431608853335867425877960916928496629182991629664903654100214900946450053872786629995869445693724001299041657434948257845644905153122838458864000479326695430719258600053239930483226650953770354174712511646273516974069245462534034085895319225452125649979474047163305307830001 730750862221594424981965739670091261094297337857 13569343110918781839835249021482970252603216587988030044836106948825516930173270978617489032334001006615524543925753725725046733884363846960470444404747241287743773746682188521738728797153760275116924829183670000 7130970454025799000067946137594446075551569949583815943390108723282396973737794273397246892274981883807989525599540630855644968426794929215599380425269625872763801485968007136000471718335185787206876242871042697778608875139078711621836858237429403052273312335081163896980825048123655535355411494046493419999 7169309004853894693616698536183663527570664411678352588247044791687141043489072737232715961588288238022010974661903752526911876859197052490952065266265699130144252031591491045333807587788600764557450846327338626261289568016170532652061787582791926724597362401398804563093625182790987016728290050466098223333 159 135 1 1 :=
  goodE_of_check (ℓ := 92987685970879442438435542470825128450626716060977046386033320841) (kq := 1024) (kr := 159) (kl := 215) (g := eVal) (p := ePt1) (t := ePt2) (s := ePt3)
    ⟨e_q⟩ e_r e_l e_numbers e_pt1 e_pt2 e_pt3 e_11 e_12 e_21 e_22

/-- **C140** for `e.param`: it is read as what it says, and gives a working pairing. -/
theorem C140_e : Reads eText ePar ∧ ∃ (q r h a b exp2 exp1 : ℕ) (sign1 sign0 : ℤ), ePar = .e q r h a b exp2 exp1 sign1 sign0 ∧
    GoodE q r h a b exp2 exp1 sign1 sign0 :=
  ⟨e_reads, _, _, _, _, _, _, _, _, _, rfl, e_good⟩

end Pbc.Shipped

import Verif.Lemmas.MontRun
import Verif.Lemmas.Bytes
import Verif.Props.Fp
import Verif.Props.FpBackends
import Verif.Props.FpBugs
import Verif.Props.FpInvertBug
import Verif.Props.Generic
import Verif.Props.Quadratic
import Verif.Props.Curve
import Verif.Props.Singular
import Verif.Props.Poly
import Verif.Props.Polymod
import Verif.Props.PolyFactor
import Verif.Lemmas.FourTorsion
import Verif.Props.PairingA
import Verif.Props.Z
import Verif.Props.Multiz
import Verif.Props.Tinyfp
import Verif.Props.Random
import Verif.Props.RandomWin
import Verif.Props.Darray
import Verif.Props.Param
import Verif.Props.Dlog
import Verif.Props.Printf
import Verif.Props.Mnt
import Verif.Props.Gt
import Verif.Props.ParamGen
import Verif.Props.Ternary
import Verif.Model.PairingD
import Verif.Spec.PairingD
import Verif.Lemmas.BaseChange
import Verif.Lemmas.Miller
import Verif.Lemmas.TateAll
import Verif.Lemmas.PairingD
import Verif.Lemmas.PairingDProd
import Verif.Props.PairingD
import Verif.Model.PairingF
import Verif.Spec.PairingF
import Verif.Lemmas.PairingF
import Verif.Props.PairingF
import Verif.Props.PairingFInst
import Verif.Model.PairingE
import Verif.Spec.PairingE
import Verif.Lemmas.TateK
import Verif.Lemmas.PairingE
import Verif.Props.PairingE
import Verif.Props.EllNet
import Verif.Props.Quotient
import Verif.Spec.EllNet
import Verif.Lemmas.EllNet
import Verif.Model.EllNet
import Verif.Lemmas.EllNetLoop
import Verif.Lemmas.EllNetTate
import Verif.Lemmas.EllNetTateK
import Verif.Lemmas.EllNetMult
import Verif.Model.Text
import Verif.Spec.Text
import Verif.Props.Text
import Verif.Model.EtaT
import Verif.Spec.EtaT
import Verif.Lemmas.EtaT
import Verif.Lemmas.EtaTCurve
import Verif.Lemmas.EtaTDiv
import Verif.Lemmas.EtaTMiller
import Verif.Lemmas.EtaTPlace
import Verif.Lemmas.EtaTField
import Verif.Lemmas.EtaTLoop
import Verif.Lemmas.EtaTPairing
import Verif.Lemmas.Tri3
import Verif.Lemmas.Tri3Cert
import Verif.Props.EtaT
import Verif.Props.EtaTField
import Verif.Model.SetMultiz
import Verif.Props.SetMultiz
import Verif.Model.ParamInit
import Verif.Props.ParamInit
import Verif.Lemmas.NonDeg
import Verif.Lemmas.PointCount
import Verif.Props.NonDeg
import Verif.Model.Options
import Verif.Spec.Options
import Verif.Props.Options
import Verif.Spec.Forms
import Verif.Model.Hilbert
import Verif.Model.Mpc
import Verif.Lemmas.Hilbert
import Verif.Lemmas.Pentagonal
import Verif.Props.Hilbert
import Verif.Props.Mpc
import Verif.Lemmas.TraceDiv
import Verif.Model.CmGen
import Verif.Lemmas.Sextic
import Verif.Lemmas.CmCurves
import Verif.Props.CmGen
import Verif.Lemmas.Stepanov
import Verif.Lemmas.NonDegAll
import Verif.Props.NonDegAll
import Verif.Lemmas.SexticHom
import Verif.Props.NonDegF
import Verif.Props.NonDegFGen
import Verif.Lemmas.NonDegE
import Verif.Props.NonDegE
import Verif.Lemmas.SymE
import Verif.Props.Symmetric
import Verif.Lemmas.NonDegI
import Verif.Props.NonDegI
import Verif.Model.CalcSyntax
import Verif.Spec.CalcSyntax
import Verif.Lemmas.CalcSyntax
import Verif.Lemmas.CalcParse
import Verif.Lemmas.CalcAccept
import Verif.Lemmas.CalcLex
import Verif.Props.CalcSyntax
import Verif.Model.Calc
import Verif.Spec.Calc
import Verif.Lemmas.Calc
import Verif.Lemmas.CalcDepth
import Verif.Props.Calc
import Verif.Model.CalcInput
import Verif.Lemmas.CalcInput
import Verif.Props.CalcInput
import Verif.Model.Getopt
import Verif.Props.Getopt
import Verif.Model.Setup
import Verif.Spec.Setup
import Verif.Props.Setup
import Verif.Spec.Session
import Verif.Model.Session
import Verif.Props.Session
import Verif.Props.SessionDF
import Verif.Props.TwistOrder
import Verif.Props.SessionStart
import Verif.Lemmas.Singular
import Verif.Props.SingularPairing
import Verif.Lemmas.ScaleHom
import Verif.Lemmas.Height
import Verif.Lemmas.HasseCount
import Verif.Lemmas.Hasse
import Verif.Lemmas.Weil
import Verif.Props.Orders
import Verif.Spec.Memory
import Verif.Model.Memory
import Verif.Lemmas.Memory
import Verif.Props.Memory
import Verif.Model.Chudnovsky
import Verif.Props.Chudnovsky
import Verif.Spec.Life
import Verif.Model.Life
import Verif.Model.LifeArith
import Verif.Model.LifeEcc
import Verif.Model.LifeMisc
import Verif.Lemmas.Life
import Verif.Lemmas.LifeCertArith
import Verif.Lemmas.LifeCertEcc
import Verif.Lemmas.LifeCertMisc
import Verif.Props.Life
import Verif.Spec.Objects
import Verif.Model.Objects
import Verif.Lemmas.Objects
import Verif.Props.Objects
import Verif.Props.MultizHeap
import Verif.Model.Dispatch
import Verif.Spec.Dispatch
import Verif.Lemmas.Dispatch
import Verif.Lemmas.DispatchKinds
import Verif.Props.Dispatch
import Verif.Props.Lengths
import Verif.Model.BlsProgram
import Verif.Props.BlsProgram
import Verif.Model.Rsa
import Verif.Props.Rsa
import Verif.Model.DemoInit
import Verif.Props.DemoInit
import Verif.Model.ListCurves
import Verif.Props.ListCurves
import Verif.Model.Sources
import Verif.Props.Sources
import Verif.Model.FpChoice
import Verif.Props.FpChoice
import Verif.Props.MultizCmp
import Verif.Props.IndexCalculus
import Verif.Lemmas.Certify
import Verif.Lemmas.ShippedPrimes
import Verif.Lemmas.ShippedPrimes2
import Verif.Lemmas.ParamText
import Verif.Lemmas.ShippedText
import Verif.Lemmas.CertPoint
import Verif.Lemmas.CertPairing
import Verif.Lemmas.CertPoly
import Verif.Model.Shipped
import Verif.Props.Shipped
import Verif.Props.ShippedA
import Verif.Props.ShippedD
import Verif.Props.ShippedE
import Verif.Props.ShippedE1
import Verif.Props.ShippedE2
import Verif.Props.ShippedE3
import Verif.Props.ShippedI
import Verif.Props.ShippedF
import Verif.Props.ShippedG
import Verif.Props.Schemes
import Verif.Props.HilbertPoly
import Verif.Props.GetTime

import Verif.Model.PyErr
import Verif.Model.Fem
import Verif.Lemmas.Numbering
import Verif.Lemmas.Assembly
import Verif.Model.Elements
import Verif.Lemmas.Elements
import Verif.Lemmas.Condense
import Verif.Lemmas.Statics
import Verif.Lemmas.Solve
import Verif.Lemmas.SemiRigid
import Verif.Props.FemElements
import Verif.Model.Length
import Verif.Props.FemLoads
import Verif.Props.FemGlobal
import Verif.Props.FemWitness
import Verif.Model.OptVars
import Verif.Model.OptProblem
import Verif.Model.OptHistory
import Verif.Spec.Opt
import Verif.Lemmas.OptVars
import Verif.Lemmas.OptFea
import Verif.Props.OptProblem
import Verif.Props.OptEval
import Verif.Props.OptWitness
import Verif.Model.OptApprox
import Verif.Props.OptApprox
import Verif.Model.OptPenalty
import Verif.Props.OptPenalty
import Verif.Model.OptDriver
import Verif.Props.OptDriver
import Verif.Model.OptBnB
import Verif.Lemmas.OptBnB
import Verif.Props.OptBnB
import Verif.Model.OptPso
import Verif.Props.OptPso
import Verif.Props.OptPsoRun
import Verif.Props.RowStiff
import Verif.Model.OptLinearize
import Verif.Props.OptLinearize
import Verif.Model.Ec3
import Verif.Props.Ec3
import Verif.Props.FemBeam
import Verif.Model.Ec3Fire
import Verif.Props.Ec3Fire
import Verif.Props.Ec3FireStress
import Verif.Props.Ec3FireHeat
import Verif.Props.OptExtra
import Verif.Props.Ec3More
import Verif.Model.Ec3Plate
import Verif.Props.Ec3Plate
import Verif.Props.Ec3PlateShear
import Verif.Spec.Section
import Verif.Lemmas.SectionGeom
import Verif.Lemmas.SectionI
import Verif.Model.SteelGeom
import Verif.Props.SteelGeom
import Verif.Props.SteelGeomI
import Verif.Model.SteelMember
import Verif.Props.SteelMember
import Verif.Props.SteelSection
import Verif.Props.SteelDesign
import Verif.Spec.Loads
import Verif.Model.Loads
import Verif.Props.Loads
import Verif.Model.Wind
import Verif.Props.Wind
import Verif.Model.RhsJoint
import Verif.Spec.RhsJoint
import Verif.Props.RhsJoint
import Verif.Model.Bolt
import Verif.Spec.Bolt
import Verif.Props.Bolt
import Verif.Model.EndPlate
import Verif.Spec.EndPlate
import Verif.Props.EndPlate
import Verif.Model.FinPlate
import Verif.Spec.FinPlate
import Verif.Props.FinPlate
import Verif.Model.OptSlp
import Verif.Spec.OptSlp
import Verif.Props.OptSlp
import Verif.Model.OptVns
import Verif.Spec.OptVns
import Verif.Props.OptVns
import Verif.Model.OptGa
import Verif.Spec.OptGa
import Verif.Props.OptGa
import Verif.Model.TimberFire
import Verif.Spec.Timber
import Verif.Props.TimberFire
import Verif.Model.TimberTaper
import Verif.Spec.TimberTaper
import Verif.Props.TimberTaper
import Verif.Model.TimberStrength
import Verif.Props.TimberStrength
import Verif.Model.TimberMember
import Verif.Spec.TimberMember
import Verif.Props.TimberMember
import Verif.Props.TimberShear
import Verif.Model.TimberStab
import Verif.Spec.TimberStab
import Verif.Props.TimberStab
import Verif.Props.TimberLn
import Verif.Props.TimberBuckle
import Verif.Props.TimberSlender
import Verif.Model.TimberApex
import Verif.Spec.TimberApex
import Verif.Props.TimberApex
import Verif.Model.TimberBearing
import Verif.Spec.TimberBearing
import Verif.Props.TimberBearing
import Verif.Spec.Frame
import Verif.Model.FrameGeom
import Verif.Model.FrameGen
import Verif.Model.FrameSimple
import Verif.Props.FrameGeom
import Verif.Props.FrameAdd
import Verif.Props.FrameGen
import Verif.Props.Frame
import Verif.Props.FrameJoin
import Verif.Props.FrameLoads
import Verif.Props.FrameUpdate
import Verif.Props.FrameSimple
import Verif.Props.FrameEnds
import Verif.Props.RaamiLoads
import Verif.Props.RaamiComb
import Verif.Props.RaamiCases
import Verif.Model.RaamiFem
import Verif.Props.RaamiFem
import Verif.Props.RaamiNodes
import Verif.Props.RaamiGen
import Verif.Props.RaamiMove
import Verif.Props.RaamiLine
import Verif.Model.RaamiDesign
import Verif.Model.RaamiSym
import Verif.Props.RaamiDesign
import Verif.Props.RaamiOpt
import Verif.Props.RaamiLoop
import Verif.Props.RaamiForces
import Verif.Props.RaamiSym
import Verif.Spec.SectionRect
import Verif.Lemmas.SectionRect
import Verif.Model.WeldedI
import Verif.Props.WeldedI
import Verif.Props.WeldedISym
import Verif.Props.WeldedIEff
import Verif.Model.WQ
import Verif.Props.WQ
import Verif.Model.Workshop
import Verif.Props.Workshop
import Verif.Model.JointCost
import Verif.Props.JointCost
import Verif.Model.PlaneTruss
import Verif.Props.PlaneTrussTab
import Verif.Props.PlaneTrussShape
import Verif.Props.PlaneTrussGen
import Verif.Props.PlaneTrussGen2
import Verif.Props.PlaneTrussWeb
import Verif.Props.PlaneTruss
import Verif.Props.PlaneTrussUneven
import Verif.Model.TrussParts
import Verif.Props.PlaneTrussHold
import Verif.Props.TrussLoads
import Verif.Props.TrussJoints
import Verif.Model.TrussJoint
import Verif.Props.TrussJoint
import Verif.Model.TrussCost
import Verif.Props.TrussCost
import Verif.Model.Beam3
import Verif.Props.Beam3
import Verif.Model.Analysis
import Verif.Props.Analysis
import Verif.Model.SecondOrder
import Verif.Props.SecondOrder
import Verif.Model.OpenProf
import Verif.Props.OpenProf
import Verif.Model.ColdRules
import Verif.Props.ColdRules
import Verif.Model.OptSolvers
import Verif.Props.OptSolvers
import Verif.Model.Composite
import Verif.Props.Composite
import Verif.Model.TrussMilp
import Verif.Props.TrussMilp
import Verif.Props.TrussMilpTopo
import Verif.Model.StructProblem
import Verif.Props.StructProblem
import Verif.Props.StructGroups
import Verif.Props.StressedSkin
import Verif.Props.Truss2D
import Verif.Props.Panels
import Verif.Model.ColdSection
import Verif.Props.ColdSection
import Verif.Props.ColdEffective
import Verif.Model.IProfile
import Verif.Props.IProfile
import Verif.Model.OptGroup
import Verif.Props.OptGroup
import Verif.Model.EccOpt
import Verif.Props.EccOpt
import Verif.Model.OptAco
import Verif.Props.OptAco
import Verif.Model.Bench
import Verif.Props.Bench
import Verif.Model.SimpleTruss
import Verif.Props.SimpleTruss
import Verif.Model.Vierendeel
import Verif.Props.Vierendeel
import Verif.Model.Portal
import Verif.Props.Portal
import Verif.Model.TrussOpt
import Verif.Props.TrussOpt
import Verif.Model.EndPlateOpt
import Verif.Props.EndPlateOpt
import Verif.Model.FrameDesign
import Verif.Props.FrameDesign
import Verif.Model.MultiSpan
import Verif.Props.MultiSpan
import Verif.Model.Export
import Verif.Props.Export

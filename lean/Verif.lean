import Verif.Model.ApproxPower
import Verif.Model.Background
import Verif.Model.Basic
import Verif.Model.BigBang
import Verif.Model.Calibration
import Verif.Model.Equations
import Verif.Model.Events
import Verif.Model.InflationSol
import Verif.Model.InitialConditions
import Verif.Model.PertSol
import Verif.Model.Perturbations
import Verif.Model.PotentialCtor
import Verif.Model.PotentialFlow
import Verif.Model.PotentialInit
import Verif.Model.Potentials
import Verif.Model.PowerSol
import Verif.Model.Reheating
import Verif.Model.Shooting
import Verif.Model.ShootingSolve
import Verif.Model.Solution
import Verif.Model.Solver
import Verif.Model.SpectraSol
import Verif.Model.Units
import Verif.Model.Version
import Verif.Model.Wrapper
import Verif.Model.WrapperFull
import Verif.Model.WrapperRun
import Verif.Spec.Background
import Verif.Spec.Events
import Verif.Spec.Perturbations
import Verif.Spec.Potential
import Verif.Spec.PowerLaw
import Verif.Spec.SlowRoll
import Verif.Lemmas.Attractor
import Verif.Lemmas.BigBang
import Verif.Lemmas.Calibration
import Verif.Lemmas.Dict
import Verif.Lemmas.Exact
import Verif.Lemmas.ExactStart
import Verif.Lemmas.Freeze
import Verif.Lemmas.GammaExpansion
import Verif.Lemmas.GlobalODE
import Verif.Lemmas.Hankel
import Verif.Lemmas.Interp
import Verif.Lemmas.LinearODE
import Verif.Lemmas.Perturbations
import Verif.Lemmas.Pivot
import Verif.Lemmas.Pow
import Verif.Lemmas.Reconstruct
import Verif.Lemmas.Reheating
import Verif.Lemmas.SlowRollAlgebra
import Verif.Lemmas.SlowRollFlow
import Verif.Lemmas.SlowRollModes
import Verif.Lemmas.SlowRollOrder
import Verif.Lemmas.Solver
import Verif.Lemmas.Stable
import Verif.Lemmas.Trajectory
import Verif.Lemmas.Universe
import Verif.Lemmas.WellPosed
import Verif.Props.C01
import Verif.Props.C02
import Verif.Props.C03
import Verif.Props.C04
import Verif.Props.C05
import Verif.Props.C06
import Verif.Props.C07
import Verif.Props.C08
import Verif.Props.C09
import Verif.Props.C10
import Verif.Props.C100
import Verif.Props.C101
import Verif.Props.C102
import Verif.Props.C103
import Verif.Props.C104
import Verif.Props.C11
import Verif.Props.C12
import Verif.Props.C13
import Verif.Props.C14
import Verif.Props.C15
import Verif.Props.C16
import Verif.Props.C17
import Verif.Props.C18
import Verif.Props.C19
import Verif.Props.C20
import Verif.Props.C21
import Verif.Props.C22
import Verif.Props.C23
import Verif.Props.C24
import Verif.Props.C25
import Verif.Props.C26
import Verif.Props.C27
import Verif.Props.C28
import Verif.Props.C29
import Verif.Props.C30
import Verif.Props.C31
import Verif.Props.C32
import Verif.Props.C33
import Verif.Props.C34
import Verif.Props.C35
import Verif.Props.C36
import Verif.Props.C37
import Verif.Props.C38
import Verif.Props.C39
import Verif.Props.C40
import Verif.Props.C41
import Verif.Props.C42
import Verif.Props.C43
import Verif.Props.C44
import Verif.Props.C45
import Verif.Props.C46
import Verif.Props.C47
import Verif.Props.C48
import Verif.Props.C49
import Verif.Props.C50
import Verif.Props.C51
import Verif.Props.C52
import Verif.Props.C53
import Verif.Props.C54
import Verif.Props.C55
import Verif.Props.C56
import Verif.Props.C57
import Verif.Props.C58
import Verif.Props.C59
import Verif.Props.C60
import Verif.Props.C61
import Verif.Props.C62
import Verif.Props.C63
import Verif.Props.C64
import Verif.Props.C65
import Verif.Props.C66
import Verif.Props.C67
import Verif.Props.C68
import Verif.Props.C69
import Verif.Props.C70
import Verif.Props.C71
import Verif.Props.C72
import Verif.Props.C73
import Verif.Props.C74
import Verif.Props.C75
import Verif.Props.C76
import Verif.Props.C77
import Verif.Props.C78
import Verif.Props.C79
import Verif.Props.C80
import Verif.Props.C81
import Verif.Props.C82
import Verif.Props.C83
import Verif.Props.C84
import Verif.Props.C85
import Verif.Props.C86
import Verif.Props.C87
import Verif.Props.C88
import Verif.Props.C89
import Verif.Props.C90
import Verif.Props.C91
import Verif.Props.C92
import Verif.Props.C93
import Verif.Props.C94
import Verif.Props.C95
import Verif.Props.C96
import Verif.Props.C97
import Verif.Props.C98
import Verif.Props.C99

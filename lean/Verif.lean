-- Root of the formal model: imports every module.
import Verif.Lemmas.Atlas
import Verif.Lemmas.Avail
import Verif.Lemmas.Backend
import Verif.Lemmas.BackendReg
import Verif.Lemmas.BackendShoot
import Verif.Lemmas.Carried
import Verif.Lemmas.Clock
import Verif.Lemmas.Clone
import Verif.Lemmas.Coercive
import Verif.Lemmas.Converge
import Verif.Lemmas.CopyFill
import Verif.Lemmas.DerivGram
import Verif.Lemmas.Descent
import Verif.Lemmas.Device
import Verif.Lemmas.Dict
import Verif.Lemmas.DilAll
import Verif.Lemmas.DilAttach
import Verif.Lemmas.DilField
import Verif.Lemmas.DilMod
import Verif.Lemmas.DilReg
import Verif.Lemmas.DilRows
import Verif.Lemmas.DilShoot
import Verif.Lemmas.Envelope
import Verif.Lemmas.Expand
import Verif.Lemmas.Field
import Verif.Lemmas.Fit
import Verif.Lemmas.Flow
import Verif.Lemmas.GeoIff
import Verif.Lemmas.GivenTotal
import Verif.Lemmas.GradList
import Verif.Lemmas.Gram
import Verif.Lemmas.HamFlow
import Verif.Lemmas.HamGrad
import Verif.Lemmas.HamSmooth
import Verif.Lemmas.Heap
import Verif.Lemmas.Hermite
import Verif.Lemmas.Kernel
import Verif.Lemmas.Manifold
import Verif.Lemmas.ModCompound
import Verif.Lemmas.ModImplicit
import Verif.Lemmas.ModQuad
import Verif.Lemmas.Mono
import Verif.Lemmas.Noether
import Verif.Lemmas.Order
import Verif.Lemmas.OrderRun
import Verif.Lemmas.OwnCot
import Verif.Lemmas.OwnCotFill
import Verif.Lemmas.PairSame
import Verif.Lemmas.Params
import Verif.Lemmas.Probe
import Verif.Lemmas.Quad
import Verif.Lemmas.RegSame
import Verif.Lemmas.Regular
import Verif.Lemmas.RelabelAll
import Verif.Lemmas.RelabelField
import Verif.Lemmas.RelabelMod
import Verif.Lemmas.RelabelReg
import Verif.Lemmas.RelabelRows
import Verif.Lemmas.Reorder
import Verif.Lemmas.ReorderReg
import Verif.Lemmas.ReorderTwin
import Verif.Lemmas.Repr
import Verif.Lemmas.Reset
import Verif.Lemmas.Rest
import Verif.Lemmas.Resume
import Verif.Lemmas.ResumeShoot
import Verif.Lemmas.RigidAll
import Verif.Lemmas.RigidAttach
import Verif.Lemmas.RigidField
import Verif.Lemmas.RigidMfd
import Verif.Lemmas.RigidModules
import Verif.Lemmas.RigidReg
import Verif.Lemmas.RigidRows
import Verif.Lemmas.RigidShoot
import Verif.Lemmas.RigidSolve
import Verif.Lemmas.Rows
import Verif.Lemmas.ScaleAll
import Verif.Lemmas.ScaleField
import Verif.Lemmas.ScaleMod
import Verif.Lemmas.ScaleShoot
import Verif.Lemmas.Shoot
import Verif.Lemmas.ShootCtrl
import Verif.Lemmas.ShootSame
import Verif.Lemmas.SilentInsert
import Verif.Lemmas.SilentRows
import Verif.Lemmas.SimMap
import Verif.Lemmas.Sks
import Verif.Lemmas.SmoothAtoms
import Verif.Lemmas.SmoothFill
import Verif.Lemmas.SmoothHam
import Verif.Lemmas.SmoothLearn
import Verif.Lemmas.SmoothReg
import Verif.Lemmas.SmoothShoot
import Verif.Lemmas.SmoothTotal
import Verif.Lemmas.Solvable
import Verif.Lemmas.SolvePos
import Verif.Lemmas.SpaceSmooth
import Verif.Lemmas.Speed
import Verif.Lemmas.SpeedShoot
import Verif.Lemmas.Stretch
import Verif.Lemmas.Taylor
import Verif.Lemmas.TurnGrad
import Verif.Lemmas.Turns
import Verif.Lemmas.Twin
import Verif.Lemmas.TwinReg
import Verif.Lemmas.Uniform
import Verif.Lemmas.Varifold
import Verif.Model.Aabb
import Verif.Model.Access
import Verif.Model.Action
import Verif.Model.Atlas
import Verif.Model.AtlasDeformed
import Verif.Model.AttachLife
import Verif.Model.Attachment
import Verif.Model.BoxItems
import Verif.Model.Build
import Verif.Model.Clouds
import Verif.Model.Combination
import Verif.Model.Coords
import Verif.Model.Describe
import Verif.Model.Device
import Verif.Model.Field
import Verif.Model.Files
import Verif.Model.Fitter
import Verif.Model.ForwardImage
import Verif.Model.Greyscale
import Verif.Model.Grid
import Verif.Model.Hull
import Verif.Model.Image
import Verif.Model.Kernel
import Verif.Model.ListUtils
import Verif.Model.Local
import Verif.Model.Manifold
import Verif.Model.MeshFiles
import Verif.Model.MeshGen
import Verif.Model.MeshUtils
import Verif.Model.Modules
import Verif.Model.Optim
import Verif.Model.PairLandmarks
import Verif.Model.Params
import Verif.Model.Plotting
import Verif.Model.Py
import Verif.Model.RegFrom
import Verif.Model.Registration
import Verif.Model.Registry
import Verif.Model.Scipy
import Verif.Model.Shooting
import Verif.Model.Sks
import Verif.Model.Spacing
import Verif.Model.TorchOptim
import Verif.Model.Varifold
import Verif.Model.XFloat
import Verif.Props.C01
import Verif.Props.C02
import Verif.Props.C03
import Verif.Props.C04
import Verif.Props.C05
import Verif.Props.C06
import Verif.Props.C07
import Verif.Props.C08
import Verif.Props.C09
import Verif.Props.C10
import Verif.Props.C100
import Verif.Props.C101
import Verif.Props.C102
import Verif.Props.C103
import Verif.Props.C104
import Verif.Props.C105
import Verif.Props.C106
import Verif.Props.C107
import Verif.Props.C108
import Verif.Props.C109
import Verif.Props.C11
import Verif.Props.C110
import Verif.Props.C111
import Verif.Props.C112
import Verif.Props.C113
import Verif.Props.C114
import Verif.Props.C115
import Verif.Props.C116
import Verif.Props.C117
import Verif.Props.C118
import Verif.Props.C119
import Verif.Props.C12
import Verif.Props.C120
import Verif.Props.C121
import Verif.Props.C122
import Verif.Props.C123
import Verif.Props.C124
import Verif.Props.C125
import Verif.Props.C126
import Verif.Props.C127
import Verif.Props.C128
import Verif.Props.C129
import Verif.Props.C13
import Verif.Props.C130
import Verif.Props.C131
import Verif.Props.C132
import Verif.Props.C133
import Verif.Props.C14
import Verif.Props.C15
import Verif.Props.C16
import Verif.Props.C17
import Verif.Props.C18
import Verif.Props.C19
import Verif.Props.C20
import Verif.Props.C21
import Verif.Props.C22
import Verif.Props.C23
import Verif.Props.C24
import Verif.Props.C25
import Verif.Props.C26
import Verif.Props.C27
import Verif.Props.C28
import Verif.Props.C29
import Verif.Props.C30
import Verif.Props.C31
import Verif.Props.C32
import Verif.Props.C33
import Verif.Props.C34
import Verif.Props.C35
import Verif.Props.C36
import Verif.Props.C37
import Verif.Props.C38
import Verif.Props.C39
import Verif.Props.C40
import Verif.Props.C41
import Verif.Props.C42
import Verif.Props.C43
import Verif.Props.C44
import Verif.Props.C45
import Verif.Props.C46
import Verif.Props.C47
import Verif.Props.C48
import Verif.Props.C49
import Verif.Props.C50
import Verif.Props.C51
import Verif.Props.C52
import Verif.Props.C53
import Verif.Props.C54
import Verif.Props.C55
import Verif.Props.C56
import Verif.Props.C57
import Verif.Props.C58
import Verif.Props.C59
import Verif.Props.C60
import Verif.Props.C61
import Verif.Props.C62
import Verif.Props.C63
import Verif.Props.C64
import Verif.Props.C65
import Verif.Props.C66
import Verif.Props.C67
import Verif.Props.C68
import Verif.Props.C69
import Verif.Props.C70
import Verif.Props.C71
import Verif.Props.C72
import Verif.Props.C73
import Verif.Props.C74
import Verif.Props.C75
import Verif.Props.C76
import Verif.Props.C77
import Verif.Props.C78
import Verif.Props.C79
import Verif.Props.C80
import Verif.Props.C81
import Verif.Props.C82
import Verif.Props.C83
import Verif.Props.C84
import Verif.Props.C85
import Verif.Props.C86
import Verif.Props.C87
import Verif.Props.C88
import Verif.Props.C89
import Verif.Props.C90
import Verif.Props.C91
import Verif.Props.C91Path
import Verif.Props.C92
import Verif.Props.C93
import Verif.Props.C94
import Verif.Props.C95
import Verif.Props.C96
import Verif.Props.C97
import Verif.Props.C98
import Verif.Props.C99
import Verif.Spec.Aabb
import Verif.Spec.Angular
import Verif.Spec.Backend
import Verif.Spec.Build
import Verif.Spec.Coercive
import Verif.Spec.ControlCurve
import Verif.Spec.Describe
import Verif.Spec.DilReg
import Verif.Spec.Dilate
import Verif.Spec.Drawn
import Verif.Spec.Euclid
import Verif.Spec.FitAtlas
import Verif.Spec.FitCtrl
import Verif.Spec.FitReg
import Verif.Spec.Fits
import Verif.Spec.Hamilton
import Verif.Spec.Hull
import Verif.Spec.Manifold
import Verif.Spec.Mobility
import Verif.Spec.Modules
import Verif.Spec.Order
import Verif.Spec.Registration
import Verif.Spec.Relabel
import Verif.Spec.Reorder
import Verif.Spec.Resume
import Verif.Spec.Rigid
import Verif.Spec.RigidReg
import Verif.Spec.Scale
import Verif.Spec.Shooting
import Verif.Spec.Smooth
import Verif.Spec.SmoothCtrl
import Verif.Spec.SmoothPy
import Verif.Spec.SmoothReg
import Verif.Spec.Stretch

import Verif.Basic
import Verif.Lemmas.Euler
import Verif.Lemmas.Exp
import Verif.Lemmas.ExpLip
import Verif.Lemmas.Filenames
import Verif.Lemmas.Float32
import Verif.Lemmas.Float64
import Verif.Lemmas.FloatConvert
import Verif.Lemmas.FloatDet
import Verif.Lemmas.FloatDot
import Verif.Lemmas.FloatDubins
import Verif.Lemmas.FloatExp
import Verif.Lemmas.FloatLog
import Verif.Lemmas.FloatLogEntry
import Verif.Lemmas.FloatLogRound
import Verif.Lemmas.FloatNear
import Verif.Lemmas.Frobenius
import Verif.Lemmas.MeshBuild
import Verif.Lemmas.MeshSize
import Verif.Lemmas.MeshWinding
import Verif.Lemmas.QuatRot
import Verif.Lemmas.Rodrigues
import Verif.Lemmas.Rot
import Verif.Lemmas.UrdfXmlDoc
import Verif.Lemmas.UrdfXmlEdit
import Verif.Lemmas.UrdfXmlFlip
import Verif.Lemmas.UrdfXmlFrame
import Verif.Lemmas.UrdfXmlLoad
import Verif.Lemmas.UrdfXmlMass
import Verif.Lemmas.UrdfXmlNode
import Verif.Lemmas.UrdfXmlSession
import Verif.Lemmas.UrdfXmlSim
import Verif.Model.Aggregates
import Verif.Model.AlMath
import Verif.Model.Anim
import Verif.Model.Average
import Verif.Model.Builder
import Verif.Model.DecimalText
import Verif.Model.Dsp
import Verif.Model.Dubins
import Verif.Model.EigenMap
import Verif.Model.Filenames
import Verif.Model.Float32
import Verif.Model.Float64
import Verif.Model.FloatAngles
import Verif.Model.FloatAxis
import Verif.Model.FloatBasis
import Verif.Model.FloatConvert
import Verif.Model.FloatDsp
import Verif.Model.FloatDubins
import Verif.Model.FloatExp
import Verif.Model.FloatFoot
import Verif.Model.FloatFrame
import Verif.Model.FloatInertia
import Verif.Model.FloatLog
import Verif.Model.FloatMap
import Verif.Model.FloatMean
import Verif.Model.FloatNearTypes
import Verif.Model.FloatNormalize
import Verif.Model.FloatPlane
import Verif.Model.FloatPolar
import Verif.Model.FloatPose
import Verif.Model.FloatQuat
import Verif.Model.FloatSix
import Verif.Model.FloatTypes
import Verif.Model.Foot
import Verif.Model.Helpers
import Verif.Model.Io
import Verif.Model.Mesh
import Verif.Model.PyText
import Verif.Model.QiGeometry
import Verif.Model.Quaternion
import Verif.Model.RosTime
import Verif.Model.Rotation
import Verif.Model.Scene
import Verif.Model.Transform
import Verif.Model.Traverser
import Verif.Model.Urdf
import Verif.Model.UrdfAccess
import Verif.Model.UrdfDot
import Verif.Model.UrdfLookup
import Verif.Model.UrdfPose
import Verif.Model.UrdfText
import Verif.Model.UrdfXml
import Verif.Model.Vec
import Verif.Props.C01
import Verif.Props.C02
import Verif.Props.C03
import Verif.Props.C04
import Verif.Props.C06
import Verif.Props.C07
import Verif.Props.C09
import Verif.Props.C100
import Verif.Props.C101
import Verif.Props.C102
import Verif.Props.C103
import Verif.Props.C104
import Verif.Props.C105
import Verif.Props.C106
import Verif.Props.C107
import Verif.Props.C108
import Verif.Props.C109
import Verif.Props.C110
import Verif.Props.C111
import Verif.Props.C112
import Verif.Props.C113
import Verif.Props.C114
import Verif.Props.C115
import Verif.Props.C116
import Verif.Props.C13
import Verif.Props.C15
import Verif.Props.C17
import Verif.Props.C20
import Verif.Props.C21
import Verif.Props.C22
import Verif.Props.C23
import Verif.Props.C24
import Verif.Props.C26
import Verif.Props.C27
import Verif.Props.C29
import Verif.Props.C32
import Verif.Props.C33
import Verif.Props.C34
import Verif.Props.C35
import Verif.Props.C37
import Verif.Props.C38
import Verif.Props.C40
import Verif.Props.C41
import Verif.Props.C43
import Verif.Props.C44
import Verif.Props.C45
import Verif.Props.C47
import Verif.Props.C48
import Verif.Props.C49
import Verif.Props.C50
import Verif.Props.C51
import Verif.Props.C52
import Verif.Props.C54
import Verif.Props.C55
import Verif.Props.C56
import Verif.Props.C57
import Verif.Props.C58
import Verif.Props.C59
import Verif.Props.C63
import Verif.Props.C64
import Verif.Props.C65
import Verif.Props.C65Outcome
import Verif.Props.C66
import Verif.Props.C67
import Verif.Props.C68
import Verif.Props.C69
import Verif.Props.C70
import Verif.Props.C71
import Verif.Props.C72
import Verif.Props.C73
import Verif.Props.C74
import Verif.Props.C75
import Verif.Props.C76
import Verif.Props.C77
import Verif.Props.C78
import Verif.Props.C79
import Verif.Props.C80
import Verif.Props.C81
import Verif.Props.C82
import Verif.Props.C83
import Verif.Props.C84
import Verif.Props.C85
import Verif.Props.C86
import Verif.Props.C87
import Verif.Props.C88
import Verif.Props.C89
import Verif.Props.C90
import Verif.Props.C91
import Verif.Props.C92
import Verif.Props.C93
import Verif.Props.C94
import Verif.Props.C95
import Verif.Props.C96
import Verif.Props.C97
import Verif.Props.C98
import Verif.Props.C99
import Verif.Spec.Collada
import Verif.Spec.Filenames
import Verif.Spec.FloatMatrix
import Verif.Spec.Frobenius
import Verif.Spec.Libm
import Verif.Spec.Matrix
import Verif.Spec.UrdfXml

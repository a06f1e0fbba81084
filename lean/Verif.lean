import Verif.Model.B64
import Verif.Model.B64Bits
import Verif.Model.B64Text
import Verif.Model.Conc
import Verif.Model.Debug
import Verif.Model.Fill
import Verif.Model.FiveAxes
import Verif.Model.Gcode
import Verif.Model.Helpers
import Verif.Model.Join2
import Verif.Model.Main
import Verif.Model.Num
import Verif.Model.Path
import Verif.Model.Prim
import Verif.Model.Slice
import Verif.Model.Stl
import Verif.Model.Template
import Verif.Model.Vip
import Verif.Model.XR
import Verif.Proofs.B64Err
import Verif.Proofs.B64Extrude
import Verif.Proofs.B64Fill
import Verif.Proofs.B64Geom
import Verif.Proofs.B64Planes
import Verif.Proofs.B64Sweep
import Verif.Proofs.B64Text
import Verif.Proofs.Base
import Verif.Proofs.Box
import Verif.Proofs.BoxCut
import Verif.Proofs.BoxDirs
import Verif.Proofs.BoxLoop
import Verif.Proofs.BoxMiddle
import Verif.Proofs.BoxRay
import Verif.Proofs.BoxRays
import Verif.Proofs.Conc
import Verif.Proofs.Crossing
import Verif.Proofs.Cut
import Verif.Proofs.Decimal
import Verif.Proofs.Extrusion
import Verif.Proofs.Fill
import Verif.Proofs.FillPlanes
import Verif.Proofs.GcodeHoare
import Verif.Proofs.GcodeText
import Verif.Proofs.Geom
import Verif.Proofs.Grid
import Verif.Proofs.Hits
import Verif.Proofs.Join
import Verif.Proofs.Join2
import Verif.Proofs.NInv
import Verif.Proofs.Norms
import Verif.Proofs.NumLit
import Verif.Proofs.Paths
import Verif.Proofs.PrinterLines
import Verif.Proofs.PrinterTrace
import Verif.Proofs.Rot
import Verif.Proofs.ShippedFile
import Verif.Proofs.Slice
import Verif.Proofs.Solid
import Verif.Proofs.Space
import Verif.Proofs.Stl
import Verif.Proofs.Sweep
import Verif.Proofs.SweepAny
import Verif.Proofs.SweepJobs
import Verif.Proofs.ToyText
import Verif.Proofs.Words
import Verif.Props.C01
import Verif.Props.C02
import Verif.Props.C03
import Verif.Props.C04
import Verif.Props.C05
import Verif.Props.C06
import Verif.Props.C07
import Verif.Props.C08
import Verif.Props.C09
import Verif.Props.C10
import Verif.Props.C100
import Verif.Props.C101
import Verif.Props.C102
import Verif.Props.C103
import Verif.Props.C104
import Verif.Props.C105
import Verif.Props.C106
import Verif.Props.C107
import Verif.Props.C108
import Verif.Props.C109
import Verif.Props.C11
import Verif.Props.C110
import Verif.Props.C111
import Verif.Props.C112
import Verif.Props.C113
import Verif.Props.C114
import Verif.Props.C115
import Verif.Props.C116
import Verif.Props.C117
import Verif.Props.C118
import Verif.Props.C119
import Verif.Props.C12
import Verif.Props.C120
import Verif.Props.C121
import Verif.Props.C122
import Verif.Props.C123
import Verif.Props.C124
import Verif.Props.C125
import Verif.Props.C126
import Verif.Props.C127
import Verif.Props.C128
import Verif.Props.C129
import Verif.Props.C13
import Verif.Props.C130
import Verif.Props.C131
import Verif.Props.C132
import Verif.Props.C133
import Verif.Props.C134
import Verif.Props.C135
import Verif.Props.C136
import Verif.Props.C137
import Verif.Props.C138
import Verif.Props.C139
import Verif.Props.C14
import Verif.Props.C140
import Verif.Props.C141
import Verif.Props.C142
import Verif.Props.C143
import Verif.Props.C144
import Verif.Props.C145
import Verif.Props.C146
import Verif.Props.C147
import Verif.Props.C15
import Verif.Props.C16
import Verif.Props.C17
import Verif.Props.C18
import Verif.Props.C19
import Verif.Props.C20
import Verif.Props.C21
import Verif.Props.C22
import Verif.Props.C23
import Verif.Props.C24
import Verif.Props.C25
import Verif.Props.C26
import Verif.Props.C27
import Verif.Props.C28
import Verif.Props.C29
import Verif.Props.C30
import Verif.Props.C31
import Verif.Props.C32
import Verif.Props.C33
import Verif.Props.C34
import Verif.Props.C35
import Verif.Props.C36
import Verif.Props.C37
import Verif.Props.C38
import Verif.Props.C39
import Verif.Props.C40
import Verif.Props.C41
import Verif.Props.C42
import Verif.Props.C43
import Verif.Props.C44
import Verif.Props.C45
import Verif.Props.C46
import Verif.Props.C47
import Verif.Props.C48
import Verif.Props.C49
import Verif.Props.C50
import Verif.Props.C51
import Verif.Props.C52
import Verif.Props.C53
import Verif.Props.C54
import Verif.Props.C55
import Verif.Props.C56
import Verif.Props.C57
import Verif.Props.C58
import Verif.Props.C59
import Verif.Props.C60
import Verif.Props.C61
import Verif.Props.C62
import Verif.Props.C63
import Verif.Props.C64
import Verif.Props.C65
import Verif.Props.C66
import Verif.Props.C67
import Verif.Props.C68
import Verif.Props.C69
import Verif.Props.C70
import Verif.Props.C71
import Verif.Props.C72
import Verif.Props.C73
import Verif.Props.C74
import Verif.Props.C75
import Verif.Props.C76
import Verif.Props.C77
import Verif.Props.C78
import Verif.Props.C79
import Verif.Props.C80
import Verif.Props.C81
import Verif.Props.C82
import Verif.Props.C83
import Verif.Props.C84
import Verif.Props.C85
import Verif.Props.C86
import Verif.Props.C87
import Verif.Props.C88
import Verif.Props.C89
import Verif.Props.C90
import Verif.Props.C91
import Verif.Props.C92
import Verif.Props.C93
import Verif.Props.C94
import Verif.Props.C95
import Verif.Props.C96
import Verif.Props.C97
import Verif.Props.C98
import Verif.Props.C99
import Verif.Spec.Binary32
import Verif.Spec.Binary64
import Verif.Spec.Chain
import Verif.Spec.Contour
import Verif.Spec.Fill
import Verif.Spec.GcodeObs
import Verif.Spec.Inside
import Verif.Spec.NumLit
import Verif.Spec.Printer
import Verif.Spec.Program
import Verif.Spec.R3
import Verif.Spec.RatToy
import Verif.Spec.RaySolid
import Verif.Spec.Rig
import Verif.Spec.Section
import Verif.Spec.Shapes
import Verif.Spec.Solid
import Verif.Spec.Sorters
import Verif.Spec.Template
import Verif.Spec.Toy

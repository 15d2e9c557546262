import Verif.Axioms
import Verif.Model.Ap
import Verif.Model.BramHist
import Verif.Model.Compare
import Verif.Model.Convert
import Verif.Model.Data
import Verif.Model.Discrete
import Verif.Model.DumpIO
import Verif.Model.Encoding
import Verif.Model.FileOpen
import Verif.Model.Float
import Verif.Model.PF
import Verif.Model.PFRef
import Verif.Model.PFRefDebug
import Verif.Model.PFTest
import Verif.Model.PFTestFiles
import Verif.Model.PFTestOutput
import Verif.Model.Puppi
import Verif.Model.PuppiTable
import Verif.Model.PuppiTest
import Verif.Model.PuppiTestOutput
import Verif.Model.Random
import Verif.Model.RandomInputs
import Verif.Model.Regionizer
import Verif.Model.RegionizerFiles
import Verif.Model.RegionizerTest
import Verif.Model.RegionizerTestOutput
import Verif.Model.Serializer
import Verif.Model.SimpleVtx
import Verif.Model.SimpleVtxTestOutput
import Verif.Model.Text
import Verif.Model.Unused
import Verif.Model.VertexTest
import Verif.Model.VertexTestOutput
import Verif.Proofs.Arith
import Verif.Proofs.Around
import Verif.Proofs.AroundDet
import Verif.Proofs.Basic
import Verif.Proofs.BramHist
import Verif.Proofs.CaloLink
import Verif.Proofs.Chain
import Verif.Proofs.Detector
import Verif.Proofs.DetectorPuppi
import Verif.Proofs.Discrete
import Verif.Proofs.Dump
import Verif.Proofs.Encoding
import Verif.Proofs.Filter
import Verif.Proofs.Float
import Verif.Proofs.Geometry
import Verif.Proofs.Hardware
import Verif.Proofs.Influence
import Verif.Proofs.Insert
import Verif.Proofs.Layout
import Verif.Proofs.Links
import Verif.Proofs.Match
import Verif.Proofs.Memory
import Verif.Proofs.Muon
import Verif.Proofs.OneMore
import Verif.Proofs.OneMoreCalo
import Verif.Proofs.OneMoreEm
import Verif.Proofs.OneMoreLink
import Verif.Proofs.OneMoreMuonLink
import Verif.Proofs.PFAgree
import Verif.Proofs.PFDefined
import Verif.Proofs.PFFacts
import Verif.Proofs.PFFirmware
import Verif.Proofs.PFGhosts
import Verif.Proofs.PFPart
import Verif.Proofs.PFPerm
import Verif.Proofs.PFReference
import Verif.Proofs.PFSafe
import Verif.Proofs.PFTest
import Verif.Proofs.PFTestCounts
import Verif.Proofs.PFTestOutput
import Verif.Proofs.PFTestReader
import Verif.Proofs.PFTrace
import Verif.Proofs.PFTrace2
import Verif.Proofs.PFTrace3
import Verif.Proofs.PFTrace4
import Verif.Proofs.PFTrace5
import Verif.Proofs.PrintedDecimals
import Verif.Proofs.Puppi
import Verif.Proofs.PuppiTable
import Verif.Proofs.Random
import Verif.Proofs.RandomInputs
import Verif.Proofs.RegDeser
import Verif.Proofs.RegMerge
import Verif.Proofs.RegMuon
import Verif.Proofs.RegMuon2
import Verif.Proofs.RegPush
import Verif.Proofs.RegionizerDump
import Verif.Proofs.RegionizerFiles
import Verif.Proofs.RegionizerTest
import Verif.Proofs.RegionizerTestOutput
import Verif.Proofs.Serializer
import Verif.Proofs.SimpleVtx
import Verif.Proofs.SimpleVtxTestOutput
import Verif.Proofs.Sort
import Verif.Proofs.Sums
import Verif.Proofs.Symmetry
import Verif.Proofs.System
import Verif.Proofs.Text
import Verif.Proofs.Tokens
import Verif.Proofs.VertexTest
import Verif.Proofs.VertexTestOutput
import Verif.Proofs.WithoutMuons
import Verif.Props.Around
import Verif.Props.AroundDet
import Verif.Props.AroundMuon
import Verif.Props.Arrival
import Verif.Props.BramHist
import Verif.Props.Chain
import Verif.Props.Columns
import Verif.Props.Columns2
import Verif.Props.Compare
import Verif.Props.Cones
import Verif.Props.DetSym
import Verif.Props.Detector
import Verif.Props.DetectorDeclared
import Verif.Props.DetectorPuppi
import Verif.Props.Discrete
import Verif.Props.Discrete2
import Verif.Props.Dump
import Verif.Props.DumpCut
import Verif.Props.DumpCutBench
import Verif.Props.Encoding
import Verif.Props.FileOpen
import Verif.Props.Geometry
import Verif.Props.Groups
import Verif.Props.GroupsCones
import Verif.Props.GroupsHadrons
import Verif.Props.GroupsList
import Verif.Props.GroupsPuppi
import Verif.Props.Hardware
import Verif.Props.Influence
import Verif.Props.Isolated
import Verif.Props.LinkIdeal
import Verif.Props.LoneDet
import Verif.Props.Memory
import Verif.Props.OneMore
import Verif.Props.OneMoreCalo
import Verif.Props.OneMoreCaloChain
import Verif.Props.OneMoreChain
import Verif.Props.OneMoreEm
import Verif.Props.OneMoreLink
import Verif.Props.OneMoreMuonChain
import Verif.Props.OneMoreMuonLink
import Verif.Props.PFAgree
import Verif.Props.PFAgree2
import Verif.Props.PFBalance
import Verif.Props.PFDefined
import Verif.Props.PFEnergy
import Verif.Props.PFLinks
import Verif.Props.PFOutputs
import Verif.Props.PFPart
import Verif.Props.PFSafety
import Verif.Props.PFTest
import Verif.Props.PFTestFiles
import Verif.Props.PFTestInit
import Verif.Props.PFTestOutput
import Verif.Props.PFTrace
import Verif.Props.ParticleList
import Verif.Props.Particles
import Verif.Props.Parts
import Verif.Props.Pieces
import Verif.Props.PiecesBench
import Verif.Props.Puppi
import Verif.Props.PuppiIdeal
import Verif.Props.PuppiOrder
import Verif.Props.PuppiTable
import Verif.Props.PuppiTest
import Verif.Props.PuppiTestOutput
import Verif.Props.RandomInputs
import Verif.Props.Regionizer
import Verif.Props.RegionizerFiles
import Verif.Props.RegionizerTest
import Verif.Props.RegionizerTestOutput
import Verif.Props.RoundTrip
import Verif.Props.Serializer
import Verif.Props.Serializer2
import Verif.Props.SimpleVtx
import Verif.Props.SimpleVtxTest
import Verif.Props.SimpleVtxTestOutput
import Verif.Props.Single
import Verif.Props.SinglePuppi
import Verif.Props.Symmetry
import Verif.Props.System
import Verif.Props.Text
import Verif.Props.Unpack
import Verif.Props.Unused
import Verif.Props.VertexTest
import Verif.Props.VertexTestOutput
import Verif.Props.VertexUse
import Verif.Props.WithoutMuons
import Verif.Spec.Around
import Verif.Spec.Arrival
import Verif.Spec.Chain
import Verif.Spec.Columns
import Verif.Spec.Compare
import Verif.Spec.Cones
import Verif.Spec.DetSym
import Verif.Spec.Detector
import Verif.Spec.DetectorPuppi
import Verif.Spec.Discrete
import Verif.Spec.Dump
import Verif.Spec.DumpCut
import Verif.Spec.Float
import Verif.Spec.Geometry
import Verif.Spec.Groups
import Verif.Spec.GroupsCones
import Verif.Spec.GroupsList
import Verif.Spec.GroupsPuppi
import Verif.Spec.Hardware
import Verif.Spec.Influence
import Verif.Spec.Isolated
import Verif.Spec.Layout
import Verif.Spec.LinkIdeal
import Verif.Spec.LoneDet
import Verif.Spec.Memory
import Verif.Spec.OneMore
import Verif.Spec.OneMoreCalo
import Verif.Spec.OneMoreCaloChain
import Verif.Spec.OneMoreChain
import Verif.Spec.OneMoreEm
import Verif.Spec.OneMoreLink
import Verif.Spec.OneMoreMuon
import Verif.Spec.OneMoreMuonChain
import Verif.Spec.PF
import Verif.Spec.PFDefined
import Verif.Spec.PFGhosts
import Verif.Spec.PFPart
import Verif.Spec.PFTest
import Verif.Spec.PFTestOutput
import Verif.Spec.PFTrace
import Verif.Spec.Particles
import Verif.Spec.Parts
import Verif.Spec.Pattern
import Verif.Spec.Pieces
import Verif.Spec.Puppi
import Verif.Spec.PuppiIdeal
import Verif.Spec.PuppiOrder
import Verif.Spec.PuppiTable
import Verif.Spec.PuppiTestOutput
import Verif.Spec.Random
import Verif.Spec.RandomInputs
import Verif.Spec.Receive
import Verif.Spec.Region
import Verif.Spec.RegionizerFiles
import Verif.Spec.RegionizerTest
import Verif.Spec.RegionizerTestOutput
import Verif.Spec.SimpleVtxTestOutput
import Verif.Spec.Single
import Verif.Spec.SinglePuppi
import Verif.Spec.Sort
import Verif.Spec.Symmetry
import Verif.Spec.System
import Verif.Spec.Text
import Verif.Spec.TextFields
import Verif.Spec.Vertex
import Verif.Spec.VertexTest
import Verif.Spec.VertexTestOutput
import Verif.Spec.VertexUse
import Verif.Spec.WithoutMuons

import Verif.Spec
import Verif.SpecIter
import Verif.Abs
import Verif.Model.BitVec
import Verif.Model.Mask
import Verif.Model.Pdep
import Verif.Model.RsVec
import Verif.Model.RsIter
import Verif.Model.GenIter
import Verif.Model.EliasFano
import Verif.Model.EliasFanoIter
import Verif.AbsEf
import Verif.Model.Sparse
import Verif.AbsSparse
import Verif.Model.Rmq
import Verif.SpecRmq
import Verif.Props.BitVec
import Verif.Props.Pdep
import Verif.Props.RsVec
import Verif.Props.GenIter
import Verif.Props.EliasFano
import Verif.Props.Sparse
import Verif.Props.Rmq
import Verif.Model.Wavelet
import Verif.AbsWavelet
import Verif.Props.Wavelet
import Verif.Model.Mmt
import Verif.Model.Lookup
import Verif.Model.Bp
import Verif.SpecTree
import Verif.Props.BpSearch
import Verif.Props.BpTree
import Verif.Model.BitSet
import Verif.Props.BitSet
import Verif.Model.Space
import Verif.Props.Space
import Verif.Props.Time
import Verif.Props.Unchecked
import Verif.Props.Release
import Verif.Model.Serde
import Verif.Props.Serde
import Verif.Model.Convert
import Verif.Props.Convert
import Verif.Props.Profile
import Verif.Proofs.BpFar
import Verif.Proofs.EfLen
import Verif.Props.BpFar
import Verif.SpecFloat
import Verif.Proofs.Float
import Verif.Props.Float
import Verif.SpecSafe
import Verif.Proofs.Safe
import Verif.Props.Safe
import Verif.Proofs.Ends
import Verif.Proofs.EndsEf
import Verif.Props.Ends
import Verif.Proofs.Documented
import Verif.Props.Documented
import Verif.Model.PdepWidth
import Verif.Conformance.Basic
import Verif.Conformance.BitVec
import Verif.Conformance.RsVec
import Verif.Conformance.EliasFano
import Verif.Conformance.Rmq
import Verif.Conformance.Wavelet
import Verif.Conformance.Mmt
import Verif.Conformance.Bp
import Verif.Conformance.Docs
import Verif.SpecLoop
import Verif.Model.IterSize
import Verif.Proofs.IterLoop
import Verif.Props.IterLoop
import Verif.Proofs.TimeWavelet
import Verif.Props.TimeWavelet
import Verif.SpecClient
import Verif.Props.Rebuild
import Verif.SpecProbe
import Verif.Proofs.Probe
import Verif.Proofs.ProbeRmq
import Verif.Proofs.ProbeRs
import Verif.Proofs.ProbeWavelet
import Verif.Proofs.ProbeTree
import Verif.Props.Probe
import Verif.Model.RsIterSteps
import Verif.Proofs.RsIterSteps
import Verif.Props.RsIterSteps
import Verif.Model.BuildSteps
import Verif.Proofs.BuildSteps
import Verif.Props.BuildSteps
import Verif.Model.EfSteps
import Verif.Proofs.SelectAverage
import Verif.Proofs.EfSteps
import Verif.Props.SelectAverage
import Verif.Props.EfMinMax
import Verif.Props.IterCost
import Verif.SpecUnwind
import Verif.Model.Unwind
import Verif.Proofs.Unwind
import Verif.Props.Unwind
import Verif.Model.Capacity
import Verif.SpecCapacity
import Verif.Proofs.Capacity
import Verif.Props.Capacity
import Verif.Model.EfSearchSteps
import Verif.SpecAverage
import Verif.Proofs.EfSearchSteps
import Verif.Props.SearchAverage
import Verif.Model.CapacityBuild
import Verif.Proofs.CapacityBuild
import Verif.Proofs.CapacityFits
import Verif.Props.CapacityBuild
import Verif.Props.Adapters
import Verif.Model.Adapters
import Verif.SpecAdapters
import Verif.Proofs.Adapters
import Verif.Model.BuildStepsMore
import Verif.Proofs.BuildStepsMore
import Verif.Props.BuildStepsMore
import Verif.Model.EqSteps
import Verif.Proofs.EqSteps
import Verif.Props.EqSteps
import Verif.Model.BitSetSteps
import Verif.Proofs.BitSetSteps
import Verif.Props.BitSetSteps
import Verif.Proofs.Follow
import Verif.Props.Walks
import Verif.Proofs.Links
import Verif.Props.TreeLaws
import Verif.Props.QueryLaws
import Verif.Props.EditLaws
import Verif.Props.Monotone
import Verif.Proofs.Subtree
import Verif.Props.Locality

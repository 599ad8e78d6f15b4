import Verif.Model.Cache
import Verif.Model.QuadField
import Verif.Model.RationalMaps
import Verif.Props.FieldArith
import Verif.Props.FieldHistory
import Verif.Props.FieldBytes
import Verif.Props.FieldParse
import Verif.Props.Cache
import Verif.Props.QuadCache
import Verif.Props.ThreadsProps
import Verif.Props.Quad
import Verif.Props.ScalarProps
import Verif.Props.WeierPoints
import Verif.Props.WeierCodec
import Verif.Props.MontPoints
import Verif.Props.TwoTorsion
import Verif.Props.MontCodec
import Verif.Props.EdwPoints
import Verif.Props.EdwCodec
import Verif.Props.MapProps
import Verif.Math.LucasCert
import Verif.Props.InstanceProps
import Verif.Props.Published
import Verif.Spec.RatMaps
import Verif.Proofs.RatMapLink
import Verif.Math.PolyCheck
import Verif.Props.BirationalProps
import Verif.Props.Iso448Props
import Verif.Props.EdwMapProps
import Verif.Spec.Isogeny
import Verif.Proofs.IsoLink
import Verif.Math.SswuCert
import Verif.Instances.Isogenies
import Verif.Props.IsogenyProps
import Verif.Props.QuadApi
import Verif.Math.Cofactor
import Verif.Math.AutJ0
import Verif.Proofs.CofLink
import Verif.Props.CofactorProps
import Verif.Model.Display
import Verif.Props.FieldMisc
import Verif.Props.DisplayProps
import Verif.Props.NamedMaps
import Verif.Math.AddMap
import Verif.Math.IsoGrid
import Verif.Math.IsoHom
import Verif.Proofs.IsoHomLink
import Verif.Instances.IsoGridSecp
import Verif.Instances.IsoGridBls
import Verif.Props.IsoHomProps
import Verif.Props.BlsIsoCount
import Verif.Math.Iso4Cert
import Verif.Math.Iso4Alg
import Verif.Props.Iso448Hom
import Verif.Math.Ell2
import Verif.Math.Fibres
import Verif.Props.Ell2Fibres
import Verif.Props.MapFibres
import Verif.Props.EqProps
import Verif.Props.ProfileProps
import Verif.Props.ParamsProps
import Verif.Props.EdwEll2Fibres
import Verif.Props.FlowProps
import Verif.Props.SumProps
import Verif.Props.MemoryProps
import Verif.Props.MapNewProps
import Verif.Props.ActionProps
import Verif.Props.ApiHistory
import Verif.Props.ApiObserve
import Verif.Props.EdwIncomplete
import Verif.Props.MontB
import Verif.Props.BlindProps
import Verif.Props.Composite
import Verif.Props.CompositeSqrt
import Verif.Props.Validated
import Verif.Props.Foreign
import Verif.Props.TraceProps
import Verif.Props.Normalize
import Verif.Props.Subgroup
import Verif.Props.MulExact
import Verif.Props.HashCover
import Verif.Props.CofVerify
import Verif.Props.HashReach
import Verif.Props.Received
import Verif.Witness.Base
import Verif.Witness.Fields
import Verif.Witness.Lists
import Verif.Witness.Weierstrass
import Verif.Witness.Montgomery
import Verif.Witness.Edwards
import Verif.Witness.Edwards448
import Verif.Witness.Isogenies
import Verif.Witness.Received
import Verif.Props.Accepted
import Verif.Witness.Accepted
import Verif.Props.Batch
import Verif.Witness.Batch
import Verif.Conformance
import Verif.Props.Ell2Exact
import Verif.Props.Threshold
import Verif.Props.Sec1
import Verif.Model.FieldTrace
import Verif.Proofs.FieldTraceLink
import Verif.Proofs.FieldTraceOps
import Verif.Proofs.FieldTraceMaps
import Verif.Proofs.FieldTraceNew
import Verif.Props.FieldTraceProps
import Verif.Props.MapTraceProps
import Verif.Witness.FieldTrace
import Verif.Props.Commit
import Verif.Props.Hollow
import Verif.Witness.Commit
import Verif.Props.Sign
import Verif.Witness.Sign
import Verif.Model.CodecTrace
import Verif.Proofs.CodecTraceLink
import Verif.Props.CodecTraceProps
import Verif.Props.Ecdsa
import Verif.Props.Opposite
import Verif.Props.Pok
import Verif.Witness.Ecdsa
import Verif.Witness.Opposite
import Verif.Witness.Pok
import Verif.Props.Feldman
import Verif.Witness.Feldman
import Verif.Props.TextProps
import Verif.Witness.Text
import Verif.Props.SmallOrder
import Verif.Props.ArithExpr
import Verif.Witness.SmallOrder
import Verif.Props.Programs
import Verif.Witness.Programs
import Verif.Spec.Client
import Verif.Props.ClientProps
import Verif.Witness.Client
import Verif.Spec.FieldClient
import Verif.Props.FieldClientProps
import Verif.Spec.ScalarClient
import Verif.Props.ScalarClientProps
import Verif.Spec.ClientThreads
import Verif.Props.ClientThreadsProps
import Verif.Witness.FieldClient

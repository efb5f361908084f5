import Verif.Model.Basic
import Verif.Model.NtlMiss
import Verif.Model.StrInt
import Verif.Model.HashAlg
import Verif.Model.HashBuckets
import Verif.Model.Prf
import Verif.Spec.StrInt
import Verif.Spec.HashBuckets
import Verif.Lemmas.Basic
import Verif.Lemmas.StrInt
import Verif.Lemmas.HashBuckets
import Verif.Props.StrInt
import Verif.Props.NtlMiss
import Verif.Props.HashBuckets
import Verif.Spec.Prf
import Verif.Lemmas.Prf
import Verif.Props.Prf
import Verif.Model.Murmur
import Verif.Lemmas.Murmur
import Verif.Props.Hash
import Verif.Model.Poly
import Verif.Spec.Poly
import Verif.Lemmas.Poly
import Verif.Props.Poly
import Verif.Model.World
import Verif.Model.Protocol
import Verif.Spec.Protocol
import Verif.Lemmas.World
import Verif.Lemmas.Events
import Verif.Lemmas.Depth
import Verif.Lemmas.Calls
import Verif.Spec.Codec
import Verif.Spec.History
import Verif.Lemmas.Codec
import Verif.Lemmas.Deliver
import Verif.Lemmas.Demo
import Verif.Lemmas.Effect
import Verif.Props.Codec
import Verif.Props.Access
import Verif.Props.Storage
import Verif.Spec.Cloud
import Verif.Lemmas.Cloud
import Verif.Props.Cloud
import Verif.Spec.Blind
import Verif.Lemmas.Blind
import Verif.Lemmas.Tables
import Verif.Lemmas.Mask
import Verif.Props.Blind
import Verif.Props.Mask
import Verif.Spec.Run
import Verif.Lemmas.Run
import Verif.Lemmas.Session
import Verif.Props.Run
import Verif.Spec.Exchange
import Verif.Lemmas.Exchange
import Verif.Props.Exchange
import Verif.Model.Bench
import Verif.Spec.Bench
import Verif.Lemmas.Bench
import Verif.Props.Bench
import Verif.Model.Simul
import Verif.Spec.Simul
import Verif.Lemmas.Simul
import Verif.Props.Simul
import Verif.Model.Tools
import Verif.Props.Tools
import Verif.Model.SimulMain
import Verif.Lemmas.SimulMain
import Verif.Props.SimulMain
import Verif.Spec.Murmur
import Verif.Lemmas.MurmurRef
import Verif.Model.Sha
import Verif.Spec.Sha
import Verif.Props.Sha
import Verif.Spec.Ideal
import Verif.Lemmas.Ideal
import Verif.Props.Ideal
import Verif.Lemmas.Fillers
import Verif.Props.Fillers
import Verif.Props.Overall
import Verif.Spec.Objects
import Verif.Props.Objects
import Verif.Spec.PolyHistory
import Verif.Props.PolyHistory
import Verif.Spec.Crowd
import Verif.Spec.Draws
import Verif.Lemmas.Crowd
import Verif.Lemmas.Foreign
import Verif.Lemmas.Pointers
import Verif.Lemmas.CrowdRun
import Verif.Lemmas.CrowdSteps
import Verif.Lemmas.CrowdEnd
import Verif.Lemmas.Draws
import Verif.Props.Draws
import Verif.Props.Crowd
import Verif.Lemmas.Guard
import Verif.Model.Lifetime
import Verif.Spec.Lifetime
import Verif.Lemmas.Lifetime
import Verif.Lemmas.Teardown
import Verif.Props.Lifetime
import Verif.Model.TestPrograms
import Verif.Props.TestPrograms
import Verif.Model.PrfHeap
import Verif.Spec.PrfHeap
import Verif.Lemmas.PrfHeap
import Verif.Props.PrfHeap
import Verif.Spec.Leak
import Verif.Lemmas.Leak
import Verif.Props.Leak
import Verif.Spec.Results
import Verif.Props.Results
import Verif.Spec.Failure
import Verif.Lemmas.Failure
import Verif.Props.Failure
import Verif.Spec.Collusion
import Verif.Props.Collusion
import Verif.Spec.Oracle
import Verif.Lemmas.Oracle
import Verif.Props.Oracle
import Verif.Props.Points
import Verif.Lemmas.OracleRun
import Verif.Props.OracleRun
import Verif.Spec.Joint
import Verif.Lemmas.Joint
import Verif.Props.Joint
import Verif.Spec.KeyOracle
import Verif.Props.KeyOracle
import Verif.Model.Cli
import Verif.Spec.Cli
import Verif.Lemmas.Cli
import Verif.Props.Cli
import Verif.Model.Owners
import Verif.Spec.Owners
import Verif.Lemmas.Owners
import Verif.Props.Owners
import Verif.Model.HbTest
import Verif.Spec.HbTest
import Verif.Props.HbTest
import Verif.Spec.Served
import Verif.Props.Served
import Verif.Spec.Search
import Verif.Props.Search
import Verif.Spec.Queries
import Verif.Props.Queries
import Verif.Spec.Misheard
import Verif.Props.Misheard
import Verif.Model.Example
import Verif.Spec.Example
import Verif.Props.Example
import Verif.Model.Convert
import Verif.Props.Convert
import Verif.Model.Stream
import Verif.Spec.Stream
import Verif.Props.Stream
import Verif.Model.Programs
import Verif.Spec.Programs
import Verif.Props.Programs
import Verif.Props.Update
import Verif.Props.Console
import Verif.Props.SimulConsole
import Verif.Props.EmptySet
import Verif.Props.Range
import Verif.Lemmas.Introduced
import Verif.Props.Dimensions
import Verif.Spec.Mismatch
import Verif.Props.Mismatch
import Verif.Spec.Load
import Verif.Props.Load
import Verif.Props.FewPoints
import Verif.Props.FieldSize
import Verif.Props.MsgLength
import Verif.Props.Malformed
import Verif.Props.Order
import Verif.Props.Forged
import Verif.Props.ForgedResult
import Verif.Props.ForgedEarly
import Verif.Model.Readable
import Verif.Spec.Readable
import Verif.Props.Readable
import Verif.Lemmas.Memory
import Verif.Spec.Memory
import Verif.Props.Memory
import Verif.Props.Impostor
import Verif.Model.PolyConsole
import Verif.Spec.PolyConsole
import Verif.Props.PolyConsole
import Verif.Spec.Decimal
import Verif.Props.Decimal
import Verif.Model.BenchConsole
import Verif.Spec.BenchConsole
import Verif.Props.BenchConsole
import Verif.Model.TableConsole
import Verif.Spec.TableConsole
import Verif.Props.TableConsole

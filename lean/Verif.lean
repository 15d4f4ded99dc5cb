import Verif.Model.Lib
import Verif.Model.Compat
import Verif.Model.Crash
import Verif.Spec.Repr
import Verif.Proof.Frames
import Verif.Proof.NewFrames
import Verif.Proof.TagOut
import Verif.Proof.TagParse
import Verif.Props.Strings
import Verif.Props.Codec
import Verif.Props.Header
import Verif.Props.Layout
import Verif.Props.Tag
import Verif.Proof.TagOutSmall
import Verif.Proof.Ops
import Verif.Proof.History
import Verif.Props.Ops
import Verif.Props.History
import Verif.Proof.File
import Verif.Props.File
import Verif.Props.Crash
import Verif.Proof.Sat
import Verif.Proof.SatParse
import Verif.Props.Robust
import Verif.Props.Kind
import Verif.Heap.Write
import Verif.Props.Heap
import Verif.Props.Compat
import Verif.Model.Null
import Verif.Spec.Format
import Verif.Props.More
import Verif.Heap.CompatSet
import Verif.Props.Concurrent
import Verif.Props.Writers
import Verif.Props.CompatFile
import Verif.Props.CompatHeap
import Verif.Props.Truthful
import Verif.Spec.Total
import Verif.Proof.Total
import Verif.Props.Exact
import Verif.Props.Claims
import Verif.Spec.Read
import Verif.Proof.Defect
import Verif.Props.ReadExact
import Verif.Proof.V24All
import Verif.Props.V24
import Verif.Props.CompatExact
import Verif.Proof.ExtAll
import Verif.Props.ExtHeader
import Verif.Props.Unsync
import Verif.Props.Algebra
import Verif.Props.Stable
import Verif.Props.Injective
import Verif.Model.Fault
import Verif.Proof.Fault
import Verif.Props.Fault
import Verif.Spec.Grammar
import Verif.Proof.Any
import Verif.Proof.AnyTag
import Verif.Props.Any
import Verif.Model.World
import Verif.Proof.World
import Verif.Spec.Files
import Verif.Props.Files
import Verif.Thread.Core
import Verif.Thread.Program
import Verif.Spec.Threads
import Verif.Thread.Solo
import Verif.Props.Threads
import Verif.Thread.Runs
import Verif.Spec.Readers
import Verif.Thread.Reads
import Verif.Thread.Looks
import Verif.Props.Readers
import Verif.Props.Cut
import Verif.Model.Processes
import Verif.Spec.Processes
import Verif.Proof.Processes
import Verif.Props.Processes
import Verif.Props.Unlocked
import Verif.Model.Kill
import Verif.Spec.Kill
import Verif.Props.Kill
import Verif.Spec.Locked
import Verif.Props.Locked
import Verif.Props.LockedValues
import Verif.Props.LockNeeded
import Verif.Spec.Misread
import Verif.Proof.Misread
import Verif.Props.Misread
import Verif.Spec.Entry
import Verif.Props.AnyCompat
import Verif.Model.Endian
import Verif.Spec.Endian
import Verif.Proof.Endian
import Verif.Proof.Sign
import Verif.Props.Endian
import Verif.Spec.EndianRead
import Verif.Props.EndianRead
import Verif.Props.Parts
import Verif.Spec.Copy
import Verif.Spec.Api
import Verif.Props.Copy
import Verif.Spec.Stack
import Verif.Props.Stack
import Verif.Props.StackCompat
import Verif.Props.Order
import Verif.Props.Between
import Verif.Props.Standard
import Verif.Props.Foreign
import Verif.Props.Bare
import Verif.Model.Memory
import Verif.Spec.Memory
import Verif.Proof.Memory
import Verif.Props.Memory
import Verif.Spec.Programs
import Verif.Props.Programs
import Verif.Spec.Both
import Verif.Props.Both
import Verif.Spec.Amount
import Verif.Props.Amount
import Verif.Spec.Again
import Verif.Props.Again
import Verif.Spec.Time
import Verif.Proof.Time
import Verif.Proof.TimeRead
import Verif.Proof.TimeOps
import Verif.Props.Time
import Verif.Proof.TimeCompat
import Verif.Props.CompatTime
import Verif.Model.Tests
import Verif.Spec.Tests
import Verif.Proof.Tests
import Verif.Props.Tests
import Verif.Props.CompatTest
import Verif.Model.Readme
import Verif.Spec.Readme
import Verif.Props.Readme
import Verif.Props.Identity
import Verif.Props.StableIff
import Verif.Props.Commute
import Verif.Props.Print
import Verif.Props.UnsyncIff
import Verif.Props.CutCompat

import Verif.Model.Lib
import Verif.Model.Decoding
import Verif.Model.Abi
import Verif.Model.Consts
import Verif.Model.Hash
import Verif.Model.EncodingMode
import Verif.Model.SystemParams
import Verif.Model.PriceGenerator
import Verif.Model.Display
import Verif.Model.Order
import Verif.Props.Table
import Verif.Props.Coding
import Verif.Props.Program
import Verif.Props.Bitmask
import Verif.Props.Predicates
import Verif.Props.Prices
import Verif.Props.Abi
import Verif.Props.Hash
import Verif.Props.System
import Verif.Props.Display
import Verif.Props.Order
import Verif.Props.Published
import Verif.Model.Lazy
import Verif.Model.Statics
import Verif.Spec.Lazy
import Verif.Spec.Statics
import Verif.Lemmas.Lazy
import Verif.Lemmas.Once
import Verif.Lemmas.Statics
import Verif.Props.Statics
import Verif.Spec.VersionHistory
import Verif.Props.VersionHistory
import Verif.Model.GeneratorRun
import Verif.Spec.PriceReader
import Verif.Spec.Sessions
import Verif.Lemmas.Generator
import Verif.Lemmas.PriceReader
import Verif.Props.Generator
import Verif.Model.HashTable
import Verif.Lemmas.HashTable
import Verif.Spec.MapContract
import Verif.Lemmas.OpenTable
import Verif.Props.HashTable
import Verif.Spec.Deploy
import Verif.Lemmas.Deploy
import Verif.Props.Deploy
import Verif.Spec.Machine
import Verif.Lemmas.Machine
import Verif.Props.Machine
import Verif.Spec.EncodingMode
import Verif.Lemmas.EncodingMode
import Verif.Props.EncodingMode
import Verif.Spec.HashKinds
import Verif.Props.HashKinds
import Verif.Model.ConstChecks
import Verif.Props.ConstChecks
import Verif.Spec.PriceParams
import Verif.Lemmas.PriceParams
import Verif.Props.PriceParams
import Verif.Model.Derived
import Verif.Spec.Derived
import Verif.Lemmas.Derived
import Verif.Props.Derived
import Verif.Spec.Upgrade
import Verif.Props.Upgrade
import Verif.Model.Debug
import Verif.Spec.Debug
import Verif.Lemmas.Debug
import Verif.Props.Debug
import Verif.Spec.DebugLayout
import Verif.Lemmas.DebugLayout
import Verif.Props.DebugLayout
import Verif.Model.Sha256
import Verif.Spec.Sha256
import Verif.Spec.Decommitment
import Verif.Lemmas.Sha256
import Verif.Props.Sha256
import Verif.Props.CodeIdentity
import Verif.Model.Atomics
import Verif.Spec.Atomics
import Verif.Lemmas.Atomics
import Verif.Props.Atomics
import Verif.Model.Tests
import Verif.Lemmas.Tests
import Verif.Props.Tests
import Verif.Spec.Pointers
import Verif.Props.Pointers
import Verif.Model.Weak
import Verif.Spec.Weak
import Verif.Lemmas.Weak
import Verif.Props.Weak
import Verif.Model.PowerFailure
import Verif.Lemmas.PowerFailure
import Verif.Props.PowerFailure
import Verif.Model.Exceptions
import Verif.Spec.Exceptions
import Verif.Lemmas.Exceptions
import Verif.Props.Exceptions
import Verif.Props.Preview
import Verif.Spec.Frames
import Verif.Lemmas.Frames
import Verif.Props.Frames
import Verif.Spec.Isolation
import Verif.Lemmas.Isolation
import Verif.Lemmas.IsolationHistory
import Verif.Props.Isolation
import Verif.Spec.Contents
import Verif.Lemmas.Contents
import Verif.Props.Contents
import Verif.Spec.Interference
import Verif.Lemmas.Interference
import Verif.Props.Interference
import Verif.Spec.Stack
import Verif.Lemmas.Stack
import Verif.Props.Stack
import Verif.Spec.Constants
import Verif.Lemmas.Constants
import Verif.Props.Constants
import Verif.Spec.Pubdata
import Verif.Props.Pubdata
import Verif.Spec.Disassembly
import Verif.Lemmas.Disassembly
import Verif.Props.Disassembly
import Verif.Spec.Listing
import Verif.Lemmas.Listing
import Verif.Props.Listing
import Verif.Spec.Caching
import Verif.Lemmas.Caching
import Verif.Props.Caching
import Verif.Spec.CanonicalCode
import Verif.Lemmas.CanonicalCode
import Verif.Props.CanonicalCode
import Verif.Spec.Circuit
import Verif.Props.Circuit
import Verif.Lemmas.Locality
import Verif.Props.Locality
import Verif.Spec.Threads
import Verif.Lemmas.Threads
import Verif.Props.Threads
import Verif.Spec.Timestamps
import Verif.Lemmas.Timestamps
import Verif.Props.Timestamps
import Verif.Spec.Retarget
import Verif.Props.Retarget
import Verif.Spec.Damage
import Verif.Props.Damage
import Verif.Spec.Builds
import Verif.Props.Builds
import Verif.Props.Panics
import Verif.Props.FlagText
import Verif.Spec.Linking
import Verif.Lemmas.Linking
import Verif.Props.Linking

import Verif.Machine
import Verif.Model.Field
import Verif.Model.Scalar
import Verif.Model.Edwards
import Verif.Model.Table
import Verif.Model.Ristretto
import Verif.Model.External
import Verif.Spec.Basic
import Verif.Proof.Limbs
import Verif.Proof.AddSub
import Verif.Proof.Montgomery
import Verif.Proof.Ops
import Verif.Proof.Bytes
import Verif.Proof.Primality
import Verif.Proof.Enc
import Verif.Proof.Pow
import Verif.Proof.Sqrt
import Verif.Props.Field
import Verif.Proof.ScalarPow
import Verif.Proof.Naf
import Verif.Props.Scalar
import Verif.Spec.Curve
import Verif.Spec.Points
import Verif.Proof.EdOps
import Verif.Proof.ScalarMul
import Verif.Proof.Base
import Verif.Proof.WindowMul
import Verif.Props.Edwards
import Verif.Proof.Compress
import Verif.Props.Compress
import Verif.Spec.Ristretto
import Verif.Proof.Even
import Verif.Proof.Decode
import Verif.Proof.Encode
import Verif.Proof.Elligator
import Verif.Proof.Classes
import Verif.Props.Ristretto
import Verif.Props.RistrettoOdd
import Verif.Props.PyText
import Verif.Props.Sharing
import Verif.Props.EqualLogs
import Verif.Props.Range
import Verif.Props.InnerProduct
import Verif.Props.Group
import Verif.Spec.Elligator
import Verif.Proof.EllMap
import Verif.Props.Elligator
import Verif.Proof.Naf2
import Verif.Props.Wide
import Verif.Proof.NonCanon
import Verif.Props.NonCanon
import Verif.Model.Misc
import Verif.Props.Docs
import Verif.Proof.Weierstrass
import Verif.Props.Forms
import Verif.Proof.NafUnique
import Verif.Props.NafUnique
import Verif.Props.Total
import Verif.Props.Hash
import Verif.Props.Protocols
import Verif.Props.Cost
import Verif.Props.Exact
import Verif.Props.Tools
import Verif.Model.Leak
import Verif.Proof.Leak
import Verif.Proof.LeakCt
import Verif.Proof.LeakInv
import Verif.Props.Leak
import Verif.Vectors
import Verif.Props.Random
import Verif.Props.RandomPoint
import Verif.Proof.Loose
import Verif.Props.Loose
import Verif.Proof.Twist
import Verif.Props.Curve
import Verif.Props.Window
import Verif.Props.Builds
import Verif.Props.Unreduced
import Verif.Proof.ScalarUnreduced
import Verif.Props.ScalarUnreduced
import Verif.Model.Count
import Verif.Props.Count
import Verif.Spec.Digits
import Verif.Model.LeakDigits
import Verif.Proof.LeakDigits
import Verif.Props.LeakDigits
import Verif.Model.LeakRoots
import Verif.Model.LeakPoints
import Verif.Proof.LeakRoots
import Verif.Proof.LeakPoints
import Verif.Proof.LeakSync
import Verif.Proof.LeakEnc
import Verif.Props.LeakRoots
import Verif.Props.LeakPoints
import Verif.Props.SmallOrder
import Verif.Model.Text
import Verif.Props.Text
import Verif.Proof.Naf3
import Verif.Props.Wrapped
import Verif.Props.WindowAll
import Verif.Props.WindowObserved
import Verif.Props.ToolText
import Verif.Props.Traits
import Verif.Proof.Rounds
import Verif.Props.Rounds
import Verif.Model.CountRoots
import Verif.Props.CountRoots
import Verif.Spec.Programs
import Verif.Model.Programs
import Verif.Props.Programs
import Verif.Model.LeakPrograms
import Verif.Proof.LeakPrograms
import Verif.Props.LeakPrograms
import Verif.Model.Sage
import Verif.Props.Sage
import Verif.Model.LeakOrder
import Verif.Props.LeakOrder
import Verif.Props.Blinding
import Verif.Props.Membership
import Verif.Model.Dalek
import Verif.Props.Circuit
import Verif.Props.DigitsAny
import Verif.Props.SafeCurve
import Verif.Model.Tests
import Verif.Props.TestsField
import Verif.Props.TestsEdwards
import Verif.Props.Tests

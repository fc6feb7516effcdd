import Verif.Toy
import Verif.Model.Context
import Verif.Model.VP
import Verif.Model.Suite
import Verif.Props.Uri
import Verif.Props.Did
import Verif.Props.Identity
import Verif.Props.Doc
import Verif.Props.Hashlink
import Verif.Props.Documents
import Verif.Props.Wire
import Verif.Props.Reader
import Verif.Props.Json
import Verif.Props.Proof
import Verif.Props.Tamper
import Verif.Props.Limits
import Verif.Props.Replay
import Verif.Props.Canonical
import Verif.Model.Secure
import Verif.Props.Secure
import Verif.Props.Chain
import Verif.Props.Accept
import Verif.Lemmas.Depth
import Verif.Props.Relay
import Verif.Lemmas.Padding
import Verif.Props.Padding
import Verif.Spec.Order
import Verif.Props.Public
import Verif.Props.Order
import Verif.Props.Forgery
import Verif.Props.Texts
import Verif.Props.RepoTests
import Verif.Props.Keys
import Verif.Props.Outcomes
import Verif.Props.Traces
import Verif.Props.Generic
import Verif.Props.Direct
import Verif.Props.Failures
import Verif.Props.Interop
import Verif.Props.Sizes
import Verif.Props.Control
import Verif.Props.Errors
import Verif.Props.Refusals
import Verif.Props.Actual
import Verif.Props.Signature
import Verif.Concrete.Double
import Verif.Concrete.DoubleLaws
import Verif.Concrete.DoubleDigits
import Verif.Concrete.DoubleText
import Verif.Concrete.DoubleRead
import Verif.Concrete.DoubleNearest
import Verif.Props.Numbers
import Verif.Concrete.X25519
import Verif.Concrete.Pkcs8
import Verif.Props.Pem
import Verif.Concrete.Bases
import Verif.Concrete.BasesLaws
import Verif.Props.Spellings
import Verif.Concrete.Dates
import Verif.Concrete.DatesLaws
import Verif.Props.Dates
import Verif.Concrete.Multiaddr
import Verif.Concrete.MultiaddrLaws
import Verif.Props.Address
import Verif.Concrete.Montgomery
import Verif.Concrete.X25519Laws
import Verif.Props.Agreement
import Verif.Model.Equality
import Verif.Props.Equality
import Verif.Props.Syntax
import Verif.Props.Suites
import Verif.Concrete.DoubleError
import Verif.Concrete.DoubleNear
import Verif.Props.Nearby
import Verif.Concrete.Argon2
import Verif.Props.Passwords
import Verif.Props.DataModel
import Verif.Lemmas.Builds
import Verif.Props.Builds
import Verif.Concrete.CurveOrder
import Verif.Props.Binding
import Verif.Concrete.MontgomeryOrder
import Verif.Concrete.Twisted
import Verif.Concrete.X25519Twist
import Verif.Props.Received
import Verif.Props.Secrets
import Verif.Props.Pads
import Verif.Props.Forge
import Verif.Props.Commit
import Verif.Props.Owner
import Verif.Props.Verifiers
import Verif.Props.Careful
import Verif.Props.Endorse
import Verif.Props.Recommendation
import Verif.Props.Pairs
import Verif.Props.Keyring
import Verif.Props.Challenge
import Verif.Props.Portable
import Verif.Props.Labels
import Verif.Props.Modelled
import Verif.Props.Links
import Verif.Props.Vault
import Verif.Props.Whole
import Verif.Props.Answers
import Verif.Props.Witness

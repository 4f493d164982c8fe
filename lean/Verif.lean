import Verif.Examples.Apps
import Verif.Examples.Complex
import Verif.Examples.Decimals
import Verif.Examples.Demo
import Verif.Examples.Floats
import Verif.Examples.Numbers
import Verif.Examples.Roots
import Verif.Lemmas.Aggregates
import Verif.Lemmas.Arith
import Verif.Lemmas.AtanFraction
import Verif.Lemmas.Binary64
import Verif.Lemmas.Bounded
import Verif.Lemmas.Builtin
import Verif.Lemmas.Calls
import Verif.Lemmas.Chain
import Verif.Lemmas.Complex
import Verif.Lemmas.Conserve
import Verif.Lemmas.ConstantDigits
import Verif.Lemmas.Context
import Verif.Lemmas.Decimal
import Verif.Lemmas.Decimal96
import Verif.Lemmas.DecimalArc
import Verif.Lemmas.DecimalArea
import Verif.Lemmas.DecimalAreaWide
import Verif.Lemmas.DecimalAtan
import Verif.Lemmas.DecimalCbrt
import Verif.Lemmas.DecimalCbrtBad
import Verif.Lemmas.DecimalCbrtNeg
import Verif.Lemmas.DecimalCbrtSmall
import Verif.Lemmas.DecimalDegrees
import Verif.Lemmas.DecimalExp
import Verif.Lemmas.DecimalExpFar
import Verif.Lemmas.DecimalExpWide
import Verif.Lemmas.DecimalHyp
import Verif.Lemmas.DecimalHypFar
import Verif.Lemmas.DecimalLn
import Verif.Lemmas.DecimalLog
import Verif.Lemmas.DecimalNear
import Verif.Lemmas.DecimalSafe
import Verif.Lemmas.DecimalSin
import Verif.Lemmas.DecimalSqrt
import Verif.Lemmas.DecimalText
import Verif.Lemmas.DecimalTrig
import Verif.Lemmas.DecimalWide
import Verif.Lemmas.DoubleExact
import Verif.Lemmas.DoubleOps
import Verif.Lemmas.DoubleText
import Verif.Lemmas.Doubles
import Verif.Lemmas.Effect
import Verif.Lemmas.ExpFraction
import Verif.Lemmas.Fold
import Verif.Lemmas.Heron
import Verif.Lemmas.Imaginary
import Verif.Lemmas.Info
import Verif.Lemmas.Integer
import Verif.Lemmas.Json
import Verif.Lemmas.JsonFloat
import Verif.Lemmas.JsonNumber
import Verif.Lemmas.JsonRequest
import Verif.Lemmas.JsonSent
import Verif.Lemmas.JsonText
import Verif.Lemmas.JsonValue
import Verif.Lemmas.Kinds
import Verif.Lemmas.Listing
import Verif.Lemmas.LoopExpr
import Verif.Lemmas.Messages
import Verif.Lemmas.Newton
import Verif.Lemmas.Numerals
import Verif.Lemmas.Order
import Verif.Lemmas.PiDigits
import Verif.Lemmas.Placed
import Verif.Lemmas.PlacedUnique
import Verif.Lemmas.Query
import Verif.Lemmas.RealRounding
import Verif.Lemmas.Renaming
import Verif.Lemmas.RpnExpr
import Verif.Lemmas.SimContext
import Verif.Lemmas.SimText
import Verif.Lemmas.Simulation
import Verif.Lemmas.Splitter
import Verif.Lemmas.Subst
import Verif.Lemmas.Terminal
import Verif.Lemmas.Text
import Verif.Lemmas.Tokenizer
import Verif.Lemmas.Universal
import Verif.Lemmas.Universal2
import Verif.Lemmas.Values
import Verif.Lemmas.Wrap
import Verif.Model.Apps
import Verif.Model.Basic
import Verif.Model.BigDecimal
import Verif.Model.Binary
import Verif.Model.Binary64
import Verif.Model.Builder
import Verif.Model.BuiltinMessages
import Verif.Model.Carray
import Verif.Model.Cli
import Verif.Model.Complex
import Verif.Model.ComplexText
import Verif.Model.Constants
import Verif.Model.Context
import Verif.Model.Cookie
import Verif.Model.Cost
import Verif.Model.Decimal
import Verif.Model.Decimal96
import Verif.Model.DoubleText
import Verif.Model.Effects
import Verif.Model.Evaluator
import Verif.Model.IgnoreCase
import Verif.Model.Info
import Verif.Model.IteratorExt
import Verif.Model.Json
import Verif.Model.JsonListing
import Verif.Model.Logical
import Verif.Model.Messages
import Verif.Model.Numeric
import Verif.Model.Ops
import Verif.Model.Query
import Verif.Model.RateLimit
import Verif.Model.Repl
import Verif.Model.Splitter
import Verif.Model.Startup
import Verif.Model.Terminal
import Verif.Model.Text
import Verif.Model.Theme
import Verif.Model.TokenApi
import Verif.Model.Tokenizer
import Verif.Model.Workers
import Verif.Model.Wrapped
import Verif.Props.Aggregates
import Verif.Props.Agree
import Verif.Props.Angles
import Verif.Props.AnglesSharp
import Verif.Props.Apps
import Verif.Props.ArcEnds
import Verif.Props.Area
import Verif.Props.AreaWide
import Verif.Props.Arith
import Verif.Props.Arity
import Verif.Props.Binary
import Verif.Props.Builder
import Verif.Props.Builtin
import Verif.Props.BuiltinMessages
import Verif.Props.Carray
import Verif.Props.Chars
import Verif.Props.Cli
import Verif.Props.Complex
import Verif.Props.ComplexDoubles
import Verif.Props.ComplexExact
import Verif.Props.ComplexNames
import Verif.Props.ComplexRemainder
import Verif.Props.Constants
import Verif.Props.Context
import Verif.Props.Cookie
import Verif.Props.Cost
import Verif.Props.Culprits
import Verif.Props.Decimal
import Verif.Props.DecimalArc
import Verif.Props.DecimalExp
import Verif.Props.DecimalFunctions
import Verif.Props.DecimalLogs
import Verif.Props.DecimalRoots
import Verif.Props.DecimalTexts
import Verif.Props.DecimalTrig
import Verif.Props.DoubleAngles
import Verif.Props.DoubleArcInverse
import Verif.Props.DoubleArcs
import Verif.Props.DoubleAreas
import Verif.Props.DoubleErrors
import Verif.Props.DoubleExtrema
import Verif.Props.DoubleFactorial
import Verif.Props.DoubleFunctions
import Verif.Props.DoubleGamma
import Verif.Props.DoubleHyperbolic
import Verif.Props.DoubleIdentities
import Verif.Props.DoubleInfinity
import Verif.Props.DoubleInverse
import Verif.Props.DoubleLogLaws
import Verif.Props.DoubleLogs
import Verif.Props.DoublePowers
import Verif.Props.DoubleQuotient
import Verif.Props.DoubleRealPowers
import Verif.Props.DoubleReciprocals
import Verif.Props.DoubleRoots
import Verif.Props.DoubleRounding
import Verif.Props.Doubles
import Verif.Props.Effects
import Verif.Props.EffectsText
import Verif.Props.Evaluator
import Verif.Props.ExpWide
import Verif.Props.Farewell
import Verif.Props.FirstFault
import Verif.Props.FloatDigits
import Verif.Props.Floats
import Verif.Props.Functions
import Verif.Props.HypFar
import Verif.Props.Imaginary
import Verif.Props.Info
import Verif.Props.Integer
import Verif.Props.IntegerTexts
import Verif.Props.Json
import Verif.Props.JsonListing
import Verif.Props.JsonNumbers
import Verif.Props.Kinds
import Verif.Props.Listing
import Verif.Props.Literals
import Verif.Props.LogBase
import Verif.Props.Logical
import Verif.Props.Messages
import Verif.Props.Munch
import Verif.Props.Names
import Verif.Props.NoPanic
import Verif.Props.NumberNames
import Verif.Props.Order
import Verif.Props.Placed
import Verif.Props.PostfixInput
import Verif.Props.Powers
import Verif.Props.Products
import Verif.Props.Query
import Verif.Props.RateLimit
import Verif.Props.ReadBack
import Verif.Props.ReadBackComplex
import Verif.Props.Recall
import Verif.Props.Register
import Verif.Props.Renaming
import Verif.Props.Repl
import Verif.Props.Scientific
import Verif.Props.Session
import Verif.Props.Settings
import Verif.Props.Simulation
import Verif.Props.Sorting
import Verif.Props.SquareRoots
import Verif.Props.Startup
import Verif.Props.StringHelpers
import Verif.Props.Subst
import Verif.Props.Terminal
import Verif.Props.TextPanic
import Verif.Props.Theme
import Verif.Props.TokenApi
import Verif.Props.Tokenizer
import Verif.Props.TurnFar
import Verif.Props.Unbounded
import Verif.Props.Viable
import Verif.Props.Workers
import Verif.Spec.Aggregates
import Verif.Spec.Apps
import Verif.Spec.Arith
import Verif.Spec.Binary64
import Verif.Spec.Bits
import Verif.Spec.Blame
import Verif.Spec.Brackets
import Verif.Spec.Builder
import Verif.Spec.Calls
import Verif.Spec.Chain
import Verif.Spec.Chars
import Verif.Spec.Cli
import Verif.Spec.Complex
import Verif.Spec.ComplexDoubles
import Verif.Spec.Culprits
import Verif.Spec.Decimal
import Verif.Spec.Effects
import Verif.Spec.FirstFault
import Verif.Spec.Floats
import Verif.Spec.History
import Verif.Spec.Imaginary
import Verif.Spec.Info
import Verif.Spec.Integer
import Verif.Spec.Json
import Verif.Spec.JsonListing
import Verif.Spec.Kinds
import Verif.Spec.Logical
import Verif.Spec.Matched
import Verif.Spec.Messages
import Verif.Spec.Munch
import Verif.Spec.Numerals
import Verif.Spec.Order
import Verif.Spec.Placed
import Verif.Spec.Places
import Verif.Spec.Products
import Verif.Spec.Query
import Verif.Spec.Recall
import Verif.Spec.Register
import Verif.Spec.Relations
import Verif.Spec.Renaming
import Verif.Spec.Repl
import Verif.Spec.Rounding
import Verif.Spec.Simulation
import Verif.Spec.Syntax
import Verif.Spec.Tables
import Verif.Spec.Terminal
import Verif.Spec.Tokens
import Verif.Spec.Unbounded
import Verif.Spec.Words

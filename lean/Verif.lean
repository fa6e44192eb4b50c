import Verif.Model.Objects
import Verif.Model.Models
import Verif.Model.Hashing
import Verif.Model.Text
import Verif.Model.Scoping
import Verif.Model.Signatures
import Verif.Model.Syntax
import Verif.Model.Stubs
import Verif.Model.Specialization
import Verif.Model.Index
import Verif.Model.Sources
import Verif.Model.Execution
import Verif.Model.Caching
import Verif.Model.Pretty
import Verif.Model.Evaluation
import Verif.Model.RawNodes
import Verif.Model.Catalog
import Verif.Model.Session
import Verif.Model.FileSystem
import Verif.Model.Overlap
import Verif.Spec.Call
import Verif.Spec.WellFormed
import Verif.Spec.Arguments
import Verif.Spec.Values
import Verif.Spec.Text
import Verif.Spec.Scoping
import Verif.Spec.Definitions
import Verif.Spec.Lookup
import Verif.Spec.Stubs
import Verif.Spec.Imports
import Verif.Spec.Fields
import Verif.Spec.Stars
import Verif.Spec.Substitution
import Verif.Spec.Index
import Verif.Spec.Execution
import Verif.Spec.Caching
import Verif.Spec.Data
import Verif.Spec.Literals
import Verif.Spec.Evaluation
import Verif.Spec.Callables
import Verif.Spec.Classes
import Verif.Spec.StubClasses
import Verif.Spec.RawNodes
import Verif.Spec.Superclasses
import Verif.Spec.Identifiers
import Verif.Spec.Expressions
import Verif.Spec.Pipeline
import Verif.Spec.Catalog
import Verif.Spec.Kinds
import Verif.Spec.Reading
import Verif.Spec.Session
import Verif.Spec.Written
import Verif.Spec.Defining
import Verif.Spec.FileSystem
import Verif.Spec.Overloads
import Verif.Spec.SameTypes
import Verif.Spec.Shapes
import Verif.Spec.Limits
import Verif.Spec.Tokenizer
import Verif.Spec.AsRead
import Verif.Spec.Foreign
import Verif.Spec.Bases
import Verif.Spec.Orders
import Verif.Spec.Inherited
import Verif.Spec.Linear
import Verif.Spec.Assignments
import Verif.Spec.WrittenBases
import Verif.Spec.ModuleOrder
import Verif.Spec.ReadingOrder
import Verif.Lemmas.WellFormed
import Verif.Lemmas.Binding
import Verif.Lemmas.Bind
import Verif.Lemmas.Compose
import Verif.Lemmas.Frame
import Verif.Lemmas.Equality
import Verif.Lemmas.Hashing
import Verif.Lemmas.Text
import Verif.Lemmas.Scoping
import Verif.Lemmas.Star
import Verif.Lemmas.Definitions
import Verif.Lemmas.Formals
import Verif.Lemmas.Pointwise
import Verif.Lemmas.Stub
import Verif.Lemmas.Lookup
import Verif.Lemmas.Twice
import Verif.Lemmas.Parsing
import Verif.Lemmas.Declared
import Verif.Lemmas.Imports
import Verif.Lemmas.Resolving
import Verif.Lemmas.Terminates
import Verif.Lemmas.Bases
import Verif.Lemmas.Specialization
import Verif.Lemmas.Underscores
import Verif.Lemmas.Index
import Verif.Lemmas.Sources
import Verif.Lemmas.Execution
import Verif.Lemmas.CacheName
import Verif.Lemmas.Caching
import Verif.Lemmas.Literals
import Verif.Lemmas.Pretty
import Verif.Lemmas.PrettySame
import Verif.Lemmas.ReadLocal
import Verif.Lemmas.Aliases
import Verif.Lemmas.Evaluation
import Verif.Lemmas.Meaning
import Verif.Lemmas.Converse
import Verif.Lemmas.EvaluationEnds
import Verif.Lemmas.Lenient
import Verif.Lemmas.Callables
import Verif.Lemmas.Classes
import Verif.Lemmas.StubClasses
import Verif.Lemmas.RawNodes
import Verif.Lemmas.Superclasses
import Verif.Lemmas.EvaluationRelations
import Verif.Lemmas.Identifiers
import Verif.Lemmas.StubModules
import Verif.Lemmas.Expressions
import Verif.Lemmas.Found
import Verif.Lemmas.Pipeline
import Verif.Lemmas.Catalog
import Verif.Lemmas.Naming
import Verif.Lemmas.OwnStub
import Verif.Lemmas.Kinds
import Verif.Lemmas.Reading
import Verif.Lemmas.Good
import Verif.Lemmas.Session
import Verif.Lemmas.SpecDefined
import Verif.Lemmas.Traversal
import Verif.Lemmas.Written
import Verif.Lemmas.Defining
import Verif.Lemmas.FileSystem
import Verif.Lemmas.Overloads
import Verif.Lemmas.Quiet
import Verif.Lemmas.SameTypes
import Verif.Lemmas.Legal
import Verif.Lemmas.Shapes
import Verif.Lemmas.ShapesSession
import Verif.Lemmas.Limits
import Verif.Lemmas.AsRead
import Verif.Lemmas.Readable
import Verif.Lemmas.Overlap
import Verif.Lemmas.Processable
import Verif.Lemmas.OrderTests
import Verif.Lemmas.Orders
import Verif.Lemmas.Linear
import Verif.Lemmas.InheritedSignature
import Verif.Lemmas.Filled
import Verif.Lemmas.Assignments
import Verif.Lemmas.WrittenBases
import Verif.Lemmas.ModuleOrder
import Verif.Lemmas.SessionTables
import Verif.Lemmas.ReadingOrder
import Verif.Lemmas.WrittenOrder
import Verif.Props.Signatures
import Verif.Props.Binding
import Verif.Props.Overloads
import Verif.Props.Equality
import Verif.Props.Text
import Verif.Props.Scoping
import Verif.Props.Definitions
import Verif.Props.Lookup
import Verif.Props.Stubs
import Verif.Props.Recursion
import Verif.Props.Trees
import Verif.Props.Bases
import Verif.Props.Specialization
import Verif.Props.Index
import Verif.Props.Sources
import Verif.Props.Execution
import Verif.Props.Caching
import Verif.Props.Pretty
import Verif.Props.Evaluation
import Verif.Props.Callables
import Verif.Props.Classes
import Verif.Props.StubClasses
import Verif.Props.RawNodes
import Verif.Props.Superclasses
import Verif.Props.StubModules
import Verif.Props.Postponed
import Verif.Props.Pipeline
import Verif.Props.Catalog
import Verif.Props.Reading
import Verif.Props.Parsed
import Verif.Props.Session
import Verif.Props.Written
import Verif.Props.BoundWritten
import Verif.Props.Defining
import Verif.Props.FileSystem
import Verif.Props.Exact
import Verif.Props.DeclaredOverloads
import Verif.Props.SameTypes
import Verif.Props.SessionAnswers
import Verif.Props.Shapes
import Verif.Props.AsRead
import Verif.Props.Readable
import Verif.Props.Foreign
import Verif.Props.PartialRead
import Verif.Props.Overlap
import Verif.Props.Orders
import Verif.Props.Inherited
import Verif.Props.Linear
import Verif.Props.InheritedSignature
import Verif.Props.WrittenBases
import Verif.Props.WrittenInherited
import Verif.Props.ModuleOrder
import Verif.Props.SessionTables
import Verif.Props.ReadingOrder
import Verif.Props.WrittenOrder

import Verif.Conformance.Basic
import Verif.Conformance.Classes
import Verif.Conformance.Container
import Verif.Conformance.Declarations
import Verif.Conformance.Default
import Verif.Conformance.Extras
import Verif.Conformance.Handlers
import Verif.Conformance.Harness
import Verif.Conformance.Math
import Verif.Conformance.Observed
import Verif.Conformance.Serialization
import Verif.Core.Colors
import Verif.Core.Interp
import Verif.Core.Scalar
import Verif.Core.Types
import Verif.Lemmas.Access
import Verif.Lemmas.Alike
import Verif.Lemmas.Alternatives
import Verif.Lemmas.Answers
import Verif.Lemmas.Approx
import Verif.Lemmas.Blame
import Verif.Lemmas.BothSame
import Verif.Lemmas.Builds
import Verif.Lemmas.Classes
import Verif.Lemmas.Complete
import Verif.Lemmas.Construct
import Verif.Lemmas.Constructs
import Verif.Lemmas.Differs
import Verif.Lemmas.Each
import Verif.Lemmas.Ends
import Verif.Lemmas.Equal
import Verif.Lemmas.EqualRun
import Verif.Lemmas.EqualTree
import Verif.Lemmas.Errs
import Verif.Lemmas.Frame
import Verif.Lemmas.Hoare
import Verif.Lemmas.Idempotent
import Verif.Lemmas.Keeps
import Verif.Lemmas.Live
import Verif.Lemmas.Locality
import Verif.Lemmas.Matching
import Verif.Lemmas.Mates
import Verif.Lemmas.Monad
import Verif.Lemmas.Notify
import Verif.Lemmas.Pickle
import Verif.Lemmas.PlainStored
import Verif.Lemmas.PlusClass
import Verif.Lemmas.Pres
import Verif.Lemmas.Proper
import Verif.Lemmas.PureKind
import Verif.Lemmas.PureVal
import Verif.Lemmas.PyEq
import Verif.Lemmas.QuietVal
import Verif.Lemmas.ReadBack
import Verif.Lemmas.ReadTree
import Verif.Lemmas.Rebuild
import Verif.Lemmas.Rejects
import Verif.Lemmas.Restored
import Verif.Lemmas.RoundTrip
import Verif.Lemmas.Scalar
import Verif.Lemmas.ScalarErr
import Verif.Lemmas.Serialize
import Verif.Lemmas.Silent
import Verif.Lemmas.Spared
import Verif.Lemmas.Steady
import Verif.Lemmas.Sure
import Verif.Lemmas.Telling
import Verif.Lemmas.Traced
import Verif.Lemmas.Tree
import Verif.Lemmas.TwinData
import Verif.Lemmas.Twins
import Verif.Lemmas.Typed
import Verif.Lemmas.Undisturbed
import Verif.Lemmas.Valid
import Verif.Lemmas.WriteTree
import Verif.Lemmas.Writes
import Verif.Models.Alias
import Verif.Models.AnyInstance
import Verif.Models.ArrayDecl
import Verif.Models.ArrayJson
import Verif.Models.ArrayMessages
import Verif.Models.Arrays
import Verif.Models.ChangeDict
import Verif.Models.Choice
import Verif.Models.ChoiceSet
import Verif.Models.Classes
import Verif.Models.Compose
import Verif.Models.ContainerClass
import Verif.Models.Decl
import Verif.Models.Demo
import Verif.Models.DocText
import Verif.Models.Dynamic
import Verif.Models.Files
import Verif.Models.FilterProps
import Verif.Models.Handlers
import Verif.Models.Into
import Verif.Models.JsonCopy
import Verif.Models.Limits
import Verif.Models.LinkArgs
import Verif.Models.LinkProg
import Verif.Models.Links
import Verif.Models.Live
import Verif.Models.Messages
import Verif.Models.Names
import Verif.Models.Observable
import Verif.Models.Pickle
import Verif.Models.Png
import Verif.Models.Pointer
import Verif.Models.Singleton
import Verif.Models.StaticJson
import Verif.Models.StopRecursion
import Verif.Models.Tags
import Verif.Models.Task
import Verif.Models.Text
import Verif.Models.Uid
import Verif.Models.Url
import Verif.Models.Warnings
import Verif.Props.C01
import Verif.Props.C02
import Verif.Props.C03
import Verif.Props.C04
import Verif.Props.C06
import Verif.Props.C07
import Verif.Props.C08
import Verif.Props.C09
import Verif.Props.C100
import Verif.Props.C101
import Verif.Props.C102
import Verif.Props.C103
import Verif.Props.C104
import Verif.Props.C105
import Verif.Props.C106
import Verif.Props.C107
import Verif.Props.C108
import Verif.Props.C109
import Verif.Props.C11
import Verif.Props.C110
import Verif.Props.C111
import Verif.Props.C112
import Verif.Props.C113
import Verif.Props.C114
import Verif.Props.C115
import Verif.Props.C13
import Verif.Props.C15
import Verif.Props.C15Keywords
import Verif.Props.C16
import Verif.Props.C17
import Verif.Props.C19
import Verif.Props.C22
import Verif.Props.C23
import Verif.Props.C24
import Verif.Props.C25
import Verif.Props.C26
import Verif.Props.C27
import Verif.Props.C28
import Verif.Props.C29
import Verif.Props.C30
import Verif.Props.C34
import Verif.Props.C35
import Verif.Props.C36
import Verif.Props.C37
import Verif.Props.C38
import Verif.Props.C39
import Verif.Props.C40
import Verif.Props.C43
import Verif.Props.C44
import Verif.Props.C45
import Verif.Props.C46
import Verif.Props.C47
import Verif.Props.C49
import Verif.Props.C50
import Verif.Props.C51
import Verif.Props.C52
import Verif.Props.C53
import Verif.Props.C55
import Verif.Props.C56
import Verif.Props.C57
import Verif.Props.C58
import Verif.Props.C59
import Verif.Props.C60
import Verif.Props.C61
import Verif.Props.C62
import Verif.Props.C63
import Verif.Props.C64
import Verif.Props.C65
import Verif.Props.C66
import Verif.Props.C67
import Verif.Props.C68
import Verif.Props.C69
import Verif.Props.C70
import Verif.Props.C71
import Verif.Props.C72
import Verif.Props.C73
import Verif.Props.C74
import Verif.Props.C75
import Verif.Props.C76
import Verif.Props.C77
import Verif.Props.C78
import Verif.Props.C79
import Verif.Props.C80
import Verif.Props.C81
import Verif.Props.C82
import Verif.Props.C83
import Verif.Props.C84
import Verif.Props.C85
import Verif.Props.C86
import Verif.Props.C87
import Verif.Props.C88
import Verif.Props.C89
import Verif.Props.C90
import Verif.Props.C91
import Verif.Props.C92
import Verif.Props.C93
import Verif.Props.C94
import Verif.Props.C95
import Verif.Props.C96
import Verif.Props.C97
import Verif.Props.C98
import Verif.Props.C99
import Verif.Py.Str
import Verif.Py.Val
import Verif.Spec.Alias
import Verif.Spec.AnyInstance
import Verif.Spec.ArrayDecl
import Verif.Spec.ArrayJson
import Verif.Spec.ArrayMessages
import Verif.Spec.Arrays
import Verif.Spec.Assign
import Verif.Spec.Busy
import Verif.Spec.ChangeDict
import Verif.Spec.ChoiceSet
import Verif.Spec.Classes
import Verif.Spec.Classless
import Verif.Spec.Close
import Verif.Spec.Complete
import Verif.Spec.Compose
import Verif.Spec.Construct
import Verif.Spec.Container
import Verif.Spec.ContainerClass
import Verif.Spec.Custom
import Verif.Spec.Decl
import Verif.Spec.Defaults
import Verif.Spec.Deserialize
import Verif.Spec.DocText
import Verif.Spec.Docs
import Verif.Spec.Dynamic
import Verif.Spec.Equal
import Verif.Spec.Exceptions
import Verif.Spec.Files
import Verif.Spec.Frame
import Verif.Spec.Guards
import Verif.Spec.Handlers
import Verif.Spec.Idempotent
import Verif.Spec.Immutable
import Verif.Spec.Initial
import Verif.Spec.InputOrder
import Verif.Spec.Into
import Verif.Spec.JsonForms
import Verif.Spec.JsonText
import Verif.Spec.KeywordOrder
import Verif.Spec.Limits
import Verif.Spec.LinkArgs
import Verif.Spec.LinkProg
import Verif.Spec.Links
import Verif.Spec.Live
import Verif.Spec.Locality
import Verif.Spec.Messages
import Verif.Spec.Names
import Verif.Spec.Observable
import Verif.Spec.OwnClass
import Verif.Spec.Pickle
import Verif.Spec.PlainOwn
import Verif.Spec.PlainStored
import Verif.Spec.PlusClass
import Verif.Spec.Png
import Verif.Spec.Pointer
import Verif.Spec.Proper
import Verif.Spec.Reads
import Verif.Spec.Recursion
import Verif.Spec.Renamed
import Verif.Spec.Reset
import Verif.Spec.RoundTrip
import Verif.Spec.Saved
import Verif.Spec.Scalar
import Verif.Spec.Serialize
import Verif.Spec.Singleton
import Verif.Spec.Split
import Verif.Spec.StaticJson
import Verif.Spec.StopRecursion
import Verif.Spec.Straight
import Verif.Spec.Strict
import Verif.Spec.Survives
import Verif.Spec.Tagged
import Verif.Spec.Tags
import Verif.Spec.Task
import Verif.Spec.Telling
import Verif.Spec.Text
import Verif.Spec.Tree
import Verif.Spec.Twins
import Verif.Spec.Types
import Verif.Spec.Uid
import Verif.Spec.Untrusted
import Verif.Spec.Url
import Verif.Spec.Valid
import Verif.Spec.Variables
import Verif.Spec.Warnings

import Verif.Lemmas.Assets
import Verif.Lemmas.Assoc
import Verif.Lemmas.AttrRep
import Verif.Lemmas.Attributes
import Verif.Lemmas.BulkAnswer
import Verif.Lemmas.BulkBody
import Verif.Lemmas.BulkDone
import Verif.Lemmas.BulkOutcome
import Verif.Lemmas.BulkReply
import Verif.Lemmas.BulkRequest
import Verif.Lemmas.BulkResponse
import Verif.Lemmas.BulkSchema
import Verif.Lemmas.BulkTotality
import Verif.Lemmas.Codes
import Verif.Lemmas.Config
import Verif.Lemmas.Container
import Verif.Lemmas.ContainerHeapFrame
import Verif.Lemmas.ContainerHeapHistory
import Verif.Lemmas.ContainerHeapOps
import Verif.Lemmas.ContainerHeapRep
import Verif.Lemmas.CoreView
import Verif.Lemmas.Declared
import Verif.Lemmas.Deletion
import Verif.Lemmas.Equality
import Verif.Lemmas.ErrorMessages
import Verif.Lemmas.FilterBal
import Verif.Lemmas.FilterEq
import Verif.Lemmas.FilterFlat
import Verif.Lemmas.FilterForm
import Verif.Lemmas.FilterHide
import Verif.Lemmas.FilterOutcome
import Verif.Lemmas.FilterParse
import Verif.Lemmas.FilterPrint
import Verif.Lemmas.FilterSame
import Verif.Lemmas.FilterStr
import Verif.Lemmas.FilterToken
import Verif.Lemmas.FilterTyped
import Verif.Lemmas.FilterTypes
import Verif.Lemmas.Firm
import Verif.Lemmas.IssueReport
import Verif.Lemmas.Issues
import Verif.Lemmas.IssuesHeap
import Verif.Lemmas.IssuesHeapOps
import Verif.Lemmas.IssuesMore
import Verif.Lemmas.ListDoc
import Verif.Lemmas.ListQuery
import Verif.Lemmas.ListTotality
import Verif.Lemmas.Lists
import Verif.Lemmas.MessageParts
import Verif.Lemmas.Messages
import Verif.Lemmas.Operator
import Verif.Lemmas.PatchBody
import Verif.Lemmas.PatchBridge
import Verif.Lemmas.PatchEndpoint
import Verif.Lemmas.PatchFrame
import Verif.Lemmas.PatchInput
import Verif.Lemmas.PatchOp
import Verif.Lemmas.PatchOutcome
import Verif.Lemmas.PatchRequest
import Verif.Lemmas.PatchTotality
import Verif.Lemmas.PatchWhole
import Verif.Lemmas.Path
import Verif.Lemmas.Presence
import Verif.Lemmas.QueryState
import Verif.Lemmas.RequestTotality
import Verif.Lemmas.RoundTrip
import Verif.Lemmas.RoundTripAssets
import Verif.Lemmas.SchemaDoc
import Verif.Lemmas.SchemaRep
import Verif.Lemmas.SchemaWF
import Verif.Lemmas.SchemaWhole
import Verif.Lemmas.Schemas
import Verif.Lemmas.Search
import Verif.Lemmas.SearchDoc
import Verif.Lemmas.SearchTotality
import Verif.Lemmas.Sendable
import Verif.Lemmas.Solid
import Verif.Lemmas.SolidProcess
import Verif.Lemmas.Sorter
import Verif.Lemmas.Str
import Verif.Lemmas.Totality
import Verif.Lemmas.Under
import Verif.Lemmas.Valid
import Verif.Lemmas.ValidAssets
import Verif.Lemmas.ValidBody
import Verif.Lemmas.ValidPresence
import Verif.Lemmas.Validators
import Verif.Model.Assets.Bulk
import Verif.Model.Assets.ErrorBodies
import Verif.Model.Assets.Group
import Verif.Model.Assets.Messages
import Verif.Model.Assets.PatchOp
import Verif.Model.Assets.ResourceType
import Verif.Model.Assets.SchemaDef
import Verif.Model.Assets.ServiceProviderConfig
import Verif.Model.Assets.User
import Verif.Model.AttrRep
import Verif.Model.Attributes
import Verif.Model.Base
import Verif.Model.Bulk
import Verif.Model.Config
import Verif.Model.Container
import Verif.Model.ContainerHeap
import Verif.Model.DecEq
import Verif.Model.Equality
import Verif.Model.Filter
import Verif.Model.IssueReport
import Verif.Model.Issues
import Verif.Model.IssuesHeap
import Verif.Model.ListChecks
import Verif.Model.Messages
import Verif.Model.Operator
import Verif.Model.Path
import Verif.Model.Presence
import Verif.Model.QueryState
import Verif.Model.SchemaDoc
import Verif.Model.Schemas
import Verif.Model.Sorter
import Verif.Model.Types
import Verif.Model.Validators
import Verif.Model.Value
import Verif.Props.AttrRep
import Verif.Props.Attributes
import Verif.Props.Bodies
import Verif.Props.BulkRequests
import Verif.Props.BulkResponseTotality
import Verif.Props.BulkResponses
import Verif.Props.BulkTotality
import Verif.Props.Config
import Verif.Props.Container
import Verif.Props.ContainerHeap
import Verif.Props.Declared
import Verif.Props.Endpoints
import Verif.Props.Equality
import Verif.Props.ErrorBodies
import Verif.Props.Filter
import Verif.Props.FilterEq
import Verif.Props.FilterTypes
import Verif.Props.IssueReport
import Verif.Props.Issues
import Verif.Props.IssuesHeap
import Verif.Props.ListBodies
import Verif.Props.ListTotality
import Verif.Props.Lists
import Verif.Props.Messages
import Verif.Props.Operator
import Verif.Props.PatchBodies
import Verif.Props.PatchEach
import Verif.Props.PatchEndpoint
import Verif.Props.PatchOp
import Verif.Props.PatchRequests
import Verif.Props.PatchTotality
import Verif.Props.Path
import Verif.Props.Presence
import Verif.Props.QueryState
import Verif.Props.RequestTotality
import Verif.Props.Requests
import Verif.Props.ResponseTotality
import Verif.Props.Responses
import Verif.Props.RoundTrip
import Verif.Props.SchemaDocs
import Verif.Props.Schemas
import Verif.Props.Search
import Verif.Props.SearchBodies
import Verif.Props.Sendable
import Verif.Props.Sorter
import Verif.Props.Totality
import Verif.Props.Types
import Verif.Props.Valid
import Verif.Spec.AttrRep
import Verif.Spec.Attributes
import Verif.Spec.Bulk
import Verif.Spec.BulkResponseTotality
import Verif.Spec.BulkTotality
import Verif.Spec.Config
import Verif.Spec.Container
import Verif.Spec.ContainerHeap
import Verif.Spec.Declared
import Verif.Spec.Equality
import Verif.Spec.Filter
import Verif.Spec.FilterForm
import Verif.Spec.FilterTypes
import Verif.Spec.IssueReport
import Verif.Spec.Issues
import Verif.Spec.IssuesHeap
import Verif.Spec.ListDoc
import Verif.Spec.ListTotality
import Verif.Spec.Messages
import Verif.Spec.Operator
import Verif.Spec.PatchBody
import Verif.Spec.PatchOp
import Verif.Spec.PatchRequest
import Verif.Spec.PatchTotality
import Verif.Spec.Path
import Verif.Spec.Presence
import Verif.Spec.QueryState
import Verif.Spec.Regex
import Verif.Spec.RoundTrip
import Verif.Spec.SchemaDoc
import Verif.Spec.Schemas
import Verif.Spec.Search
import Verif.Spec.SearchDoc
import Verif.Spec.Sorter
import Verif.Spec.Totality
import Verif.Spec.Types
import Verif.Spec.Valid
import Verif.Spec.Validators

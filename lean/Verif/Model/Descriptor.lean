import Verif.Model.Requests
import Verif.Model.Gateway
/-!
# The generated protobuf code

What protoc wrote into core/pkg/pb/v2 (and, the same, into pkg/pb/v2): the descriptors of the three published
files as bytes, the tables that resolve the types of fields, the Go structs, and the gRPC service tables.
protobuf-go (v1.33.0, core/go.mod:28) builds its readers and writers from these at start-up: internal/filedesc
reads the descriptor, internal/impl finds each struct's fields by the numbers in their tags.  Left out: comments,
the Go package option, the getters (each returns its field or the zero value) and the gzipped form.
-/
namespace OM.Desc
open OM.Wire

/-- `k` bytes, the first one highest. -/
def bigEndian (k n : Nat) : Str := (List.range k).map fun i => byte (n / 256 ^ (k - 1 - i) % 256)

/-- The bytes of a Go array from its lines: sixteen each, the last one `k`. -/
def bytes (k : Nat) : List Nat → Str
  | [] => []
  | [n] => bigEndian k n
  | n :: ns => bigEndian 16 n ++ bytes k ns

/-- `file_messages_proto_rawDesc`, messages.pb.go:1647-1921; one number for each line. -/
def rawMessages : Str :=
  bytes 11 [
   0x0a0e6d657373616765732e70726f746f, 0x120d6f70656e5f6d617463682e76321a, 0x19676f6f676c652f70726f746f627566,
   0x2f616e792e70726f746f1a1f676f6f67, 0x6c652f70726f746f6275662f74696d65, 0x7374616d702e70726f746f22d3050a06,
   0x5469636b6574120e0a02696418012001, 0x28095202696412430a0f657870697261, 0x74696f6e5f74696d6518022001280b32,
   0x1a2e676f6f676c652e70726f746f6275, 0x662e54696d657374616d70520e657870, 0x69726174696f6e54696d6512440a0a61,
   0x74747269627574657318032001280b32, 0x242e6f70656e5f6d617463682e76322e, 0x5469636b65742e46696c74657261626c,
   0x6544617461520a617474726962757465, 0x7312450a0a657874656e73696f6e7318, 0x042003280b32252e6f70656e5f6d6174,
   0x63682e76322e5469636b65742e457874, 0x656e73696f6e73456e747279520a6578, 0x74656e73696f6e731a91030a0e46696c,
   0x74657261626c654461746112120a0474, 0x61677318012003280952047461677312, 0x550a0b737472696e675f617267731802,
   0x2003280b32342e6f70656e5f6d617463, 0x682e76322e5469636b65742e46696c74, 0x657261626c65446174612e537472696e,
   0x6741726773456e747279520a73747269, 0x6e674172677312550a0b646f75626c65, 0x5f6172677318032003280b32342e6f70,
   0x656e5f6d617463682e76322e5469636b, 0x65742e46696c74657261626c65446174, 0x612e446f75626c6541726773456e7472,
   0x79520a646f75626c6541726773123f0a, 0x0d6372656174696f6e5f74696d651804, 0x2001280b321a2e676f6f676c652e7072,
   0x6f746f6275662e54696d657374616d70, 0x520c6372656174696f6e54696d651a3d, 0x0a0f537472696e6741726773456e7472,
   0x7912100a036b65791801200128095203, 0x6b657912140a0576616c756518022001, 0x2809520576616c75653a0238011a3d0a,
   0x0f446f75626c6541726773456e747279, 0x12100a036b657918012001280952036b, 0x657912140a0576616c75651802200128,
   0x01520576616c75653a0238011a530a0f, 0x457874656e73696f6e73456e74727912, 0x100a036b657918012001280952036b65,
   0x79122a0a0576616c756518022001280b, 0x32142e676f6f676c652e70726f746f62, 0x75662e416e79520576616c75653a0238,
   0x0122cc010a0a41737369676e6d656e74, 0x121e0a0a636f6e6e656374696f6e1801, 0x20012809520a636f6e6e656374696f6e,
   0x12490a0a657874656e73696f6e731802, 0x2003280b32292e6f70656e5f6d617463, 0x682e76322e41737369676e6d656e742e,
   0x457874656e73696f6e73456e74727952, 0x0a657874656e73696f6e731a530a0f45, 0x7874656e73696f6e73456e7472791210,
   0x0a036b657918012001280952036b6579, 0x122a0a0576616c756518022001280b32, 0x142e676f6f676c652e70726f746f6275,
   0x662e416e79520576616c75653a023801, 0x22fd090a04506f6f6c12120a046e616d, 0x6518012001280952046e616d6512540a,
   0x137461675f70726573656e745f66696c, 0x7465727318022003280b32242e6f7065, 0x6e5f6d617463682e76322e506f6f6c2e,
   0x54616750726573656e7446696c746572, 0x521174616750726573656e7446696c74, 0x657273125a0a15737472696e675f6571,
   0x75616c735f66696c7465727318032003, 0x280b32262e6f70656e5f6d617463682e, 0x76322e506f6f6c2e537472696e674571,
   0x75616c7346696c746572521373747269, 0x6e67457175616c7346696c7465727312, 0x570a14646f75626c655f72616e67655f,
   0x66696c7465727318042003280b32252e, 0x6f70656e5f6d617463682e76322e506f, 0x6f6c2e446f75626c6552616e67654669,
   0x6c7465725212646f75626c6552616e67, 0x6546696c7465727312680a1a63726561, 0x74696f6e5f74696d655f72616e67655f,
   0x66696c74657218052001280b322b2e6f, 0x70656e5f6d617463682e76322e506f6f, 0x6c2e4372656174696f6e54696d655261,
   0x6e676546696c74657252176372656174, 0x696f6e54696d6552616e676546696c74, 0x657212390a0c7061727469636970616e,
   0x747318062001280b32152e6f70656e5f, 0x6d617463682e76322e526f7374657252, 0x0c7061727469636970616e747312430a,
   0x0a657874656e73696f6e731807200328, 0x0b32232e6f70656e5f6d617463682e76, 0x322e506f6f6c2e457874656e73696f6e,
   0x73456e747279520a657874656e73696f, 0x6e731a240a1054616750726573656e74, 0x46696c74657212100a03746167180120,
   0x01280952037461671a490a1253747269, 0x6e67457175616c7346696c746572121d, 0x0a0a737472696e675f61726718012001,
   0x28095209737472696e6741726712140a, 0x0576616c756518022001280952057661, 0x6c75651aa0010a11446f75626c655261,
   0x6e676546696c746572121d0a0a646f75, 0x626c655f617267180120012809520964, 0x6f75626c6541726712180a076d696e69,
   0x6d756d18022001280152076d696e696d, 0x756d12180a076d6178696d756d180320, 0x01280152076d6178696d756d12380a06,
   0x626f756e647318042001280e32202e6f, 0x70656e5f6d617463682e76322e506f6f, 0x6c2e46696c746572426f756e64735206,
   0x626f756e64731ab3010a174372656174, 0x696f6e54696d6552616e676546696c74, 0x657212300a0573746172741806200128,
   0x0b321a2e676f6f676c652e70726f746f, 0x6275662e54696d657374616d70520573, 0x74617274122c0a03656e641807200128,
   0x0b321a2e676f6f676c652e70726f746f, 0x6275662e54696d657374616d70520365, 0x6e6412380a06626f756e647318042001,
   0x280e32202e6f70656e5f6d617463682e, 0x76322e506f6f6c2e46696c746572426f, 0x756e64735206626f756e64731a530a0f,
   0x457874656e73696f6e73456e74727912, 0x100a036b657918012001280952036b65, 0x79122a0a0576616c756518022001280b,
   0x32142e676f6f676c652e70726f746f62, 0x75662e416e79520576616c75653a0238, 0x0122cc010a0c46696c746572426f756e,
   0x647312100a0c4558434c5544455f4e4f, 0x4e45100012100a0c494e434c5544455f, 0x424f54481000120f0a0b4558434c5544,
   0x455f4d494e100112110a0d4558434c55, 0x44455f5354415254100112140a10494e, 0x434c5544455f4d41585f4f4e4c591001,
   0x120f0a0b4558434c5544455f4d415810, 0x02120f0a0b4558434c5544455f454e44, 0x100212140a10494e434c5544455f4d49,
   0x4e5f4f4e4c59100212100a0c4558434c, 0x5544455f424f5448100312100a0c494e, 0x434c5544455f4e4f4e4510031a021001,
   0x22c2020a0750726f66696c6512120a04, 0x6e616d6518012001280952046e616d65, 0x12370a05706f6f6c7318022003280b32,
   0x212e6f70656e5f6d617463682e76322e, 0x50726f66696c652e506f6f6c73456e74, 0x72795205706f6f6c7312460a0a657874,
   0x656e73696f6e7318032003280b32262e, 0x6f70656e5f6d617463682e76322e5072, 0x6f66696c652e457874656e73696f6e73,
   0x456e747279520a657874656e73696f6e, 0x731a4d0a0a506f6f6c73456e74727912, 0x100a036b657918012001280952036b65,
   0x7912290a0576616c756518022001280b, 0x32132e6f70656e5f6d617463682e7632, 0x2e506f6f6c520576616c75653a023801,
   0x1a530a0f457874656e73696f6e73456e, 0x74727912100a036b6579180120012809, 0x52036b6579122a0a0576616c75651802,
   0x2001280b32142e676f6f676c652e7072, 0x6f746f6275662e416e79520576616c75, 0x653a02380122c2020a054d6174636812,
   0x0e0a0269641801200128095202696412, 0x3b0a07726f737465727318022003280b, 0x32212e6f70656e5f6d617463682e7632,
   0x2e4d617463682e526f7374657273456e, 0x7472795207726f737465727312440a0a, 0x657874656e73696f6e7318032003280b,
   0x32242e6f70656e5f6d617463682e7632, 0x2e4d617463682e457874656e73696f6e, 0x73456e747279520a657874656e73696f,
   0x6e731a510a0c526f7374657273456e74, 0x727912100a036b657918012001280952, 0x036b6579122b0a0576616c7565180220,
   0x01280b32152e6f70656e5f6d61746368, 0x2e76322e526f73746572520576616c75, 0x653a0238011a530a0f457874656e7369,
   0x6f6e73456e74727912100a036b657918, 0x012001280952036b6579122a0a057661, 0x6c756518022001280b32142e676f6f67,
   0x6c652e70726f746f6275662e416e7952, 0x0576616c75653a02380122a4020a0652, 0x6f7374657212120a046e616d65180120,
   0x01280952046e616d6512390a0a617373, 0x69676e6d656e7418022001280b32192e, 0x6f70656e5f6d617463682e76322e4173,
   0x7369676e6d656e74520a61737369676e, 0x6d656e74122f0a077469636b65747318, 0x032003280b32152e6f70656e5f6d6174,
   0x63682e76322e5469636b657452077469, 0x636b65747312450a0a657874656e7369, 0x6f6e7318042003280b32252e6f70656e,
   0x5f6d617463682e76322e526f73746572, 0x2e457874656e73696f6e73456e747279, 0x520a657874656e73696f6e731a530a0f,
   0x457874656e73696f6e73456e74727912, 0x100a036b657918012001280952036b65, 0x79122a0a0576616c756518022001280b,
   0x32142e676f6f676c652e70726f746f62, 0x75662e416e79520576616c75653a0238, 0x0122b2010a174d617463686d616b696e,
   0x6746756e6374696f6e5370656312120a, 0x046e616d6518012001280952046e616d, 0x6512120a04686f737418022001280952,
   0x04686f737412120a04706f7274180320, 0x0128055204706f7274123f0a04747970, 0x6518042001280e322b2e6f70656e5f6d,
   0x617463682e76322e4d617463686d616b, 0x696e6746756e6374696f6e537065632e, 0x54797065520474797065221a0a045479,
   0x706512080a0452455354100012080a04, 0x47525043100122670a144368756e6b65, 0x644d6d6652756e526571756573741230,
   0x0a0770726f66696c6518012001280b32, 0x162e6f70656e5f6d617463682e76322e, 0x50726f66696c65520770726f66696c65,
   0x121d0a0a6e756d5f6368756e6b731802, 0x2001280552096e756d4368756e6b7322, 0x440a134372656174655469636b657452,
   0x657175657374122d0a067469636b6574, 0x18012001280b32152e6f70656e5f6d61, 0x7463682e76322e5469636b6574520674,
   0x69636b657422330a1443726561746554, 0x69636b6574526573706f6e7365121b0a, 0x097469636b65745f6964180120012809,
   0x52087469636b6574496422390a184465, 0x61637469766174655469636b65747352, 0x657175657374121d0a0a7469636b6574,
   0x5f69647318012003280952097469636b, 0x6574496473221b0a1944656163746976, 0x6174655469636b657473526573706f6e,
   0x736522370a1641637469766174655469, 0x636b65747352657175657374121d0a0a, 0x7469636b65745f696473180120032809,
   0x52097469636b657449647322190a1741, 0x637469766174655469636b6574735265, 0x73706f6e7365227a0a0a4d6d66526571,
   0x7565737412300a0770726f66696c6518, 0x012001280b32162e6f70656e5f6d6174, 0x63682e76322e50726f66696c65520770,
   0x726f66696c65123a0a046d6d66731802, 0x2003280b32262e6f70656e5f6d617463, 0x682e76322e4d617463686d616b696e67,
   0x46756e6374696f6e5370656352046d6d, 0x667322410a1353747265616d65644d6d, 0x66526573706f6e7365122a0a056d6174,
   0x636818012001280b32142e6f70656e5f, 0x6d617463682e76322e4d617463685205, 0x6d61746368225e0a1843726561746541,
   0x737369676e6d656e7473526571756573, 0x7412420a1161737369676e6d656e745f, 0x726f7374657218012001280b32152e6f,
   0x70656e5f6d617463682e76322e526f73, 0x746572521061737369676e6d656e7452, 0x6f73746572221b0a1943726561746541,
   0x737369676e6d656e7473526573706f6e, 0x736522380a1757617463684173736967, 0x6e6d656e747352657175657374121d0a,
   0x0a7469636b65745f6964731801200328, 0x0952097469636b6574496473226d0a20, 0x53747265616d65645761746368417373,
   0x69676e6d656e7473526573706f6e7365, 0x12390a0a61737369676e6d656e741801, 0x2001280b32192e6f70656e5f6d617463,
   0x682e76322e41737369676e6d656e7452, 0x0a61737369676e6d656e74120e0a0269, 0x641802200128095202696442265a186f,
   0x70656e2d6d617463682e6465762f706b, 0x672f70622f7632aa02094f70656e4d61, 0x746368620670726f746f33]

/-- `file_api_proto_rawDesc`, api.pb.go:45-92. -/
def rawApi : Str :=
  bytes 4 [
   0x0a096170692e70726f746f120d6f7065, 0x6e5f6d617463682e76321a0e6d657373, 0x616765732e70726f746f32f7040a104f,
   0x70656e4d617463685365727669636512, 0x590a0c4372656174655469636b657412, 0x222e6f70656e5f6d617463682e76322e,
   0x4372656174655469636b657452657175, 0x6573741a232e6f70656e5f6d61746368, 0x2e76322e4372656174655469636b6574,
   0x526573706f6e7365220012680a114465, 0x61637469766174655469636b65747312, 0x272e6f70656e5f6d617463682e76322e,
   0x446561637469766174655469636b6574, 0x73526571756573741a282e6f70656e5f, 0x6d617463682e76322e44656163746976,
   0x6174655469636b657473526573706f6e, 0x7365220012620a0f4163746976617465, 0x5469636b65747312252e6f70656e5f6d,
   0x617463682e76322e4163746976617465, 0x5469636b657473526571756573741a26, 0x2e6f70656e5f6d617463682e76322e41,
   0x637469766174655469636b6574735265, 0x73706f6e73652200125f0a1a496e766f, 0x6b654d617463686d616b696e6746756e,
   0x6374696f6e7312192e6f70656e5f6d61, 0x7463682e76322e4d6d66526571756573, 0x741a222e6f70656e5f6d617463682e76,
   0x322e53747265616d65644d6d66526573, 0x706f6e73652200300112680a11437265, 0x61746541737369676e6d656e74731227,
   0x2e6f70656e5f6d617463682e76322e43, 0x726561746541737369676e6d656e7473, 0x526571756573741a282e6f70656e5f6d,
   0x617463682e76322e4372656174654173, 0x7369676e6d656e7473526573706f6e73, 0x652200126f0a10576174636841737369,
   0x676e6d656e747312262e6f70656e5f6d, 0x617463682e76322e5761746368417373, 0x69676e6d656e7473526571756573741a,
   0x2f2e6f70656e5f6d617463682e76322e, 0x53747265616d65645761746368417373, 0x69676e6d656e7473526573706f6e7365,
   0x2200300142265a186f70656e2d6d6174, 0x63682e6465762f706b672f70622f7632, 0xaa02094f70656e4d6174636862067072, 0x6f746f33]

/-- `file_mmf_proto_rawDesc`, mmf.pb.go:38-52. -/
def rawMmf : Str :=
  bytes 14 [
   0x0a096d6d662e70726f746f120d6f7065, 0x6e5f6d617463682e76321a0e6d657373, 0x616765732e70726f746f32720a1a4d61,
   0x7463684d616b696e6746756e6374696f, 0x6e5365727669636512540a0352756e12, 0x232e6f70656e5f6d617463682e76322e,
   0x4368756e6b65644d6d6652756e526571, 0x756573741a222e6f70656e5f6d617463, 0x682e76322e53747265616d65644d6d66,
   0x526573706f6e73652200280130014226, 0x5a186f70656e2d6d617463682e646576, 0x2f706b672f70622f7632aa02094f7065,
   0x6e4d61746368620670726f746f33]

/-- `file_messages_proto_goTypes`, messages.pb.go:1937-1977: the types by their full names. -/
def goTypes : List String :=
  [
   "open_match.v2.Pool.FilterBounds", "open_match.v2.MatchmakingFunctionSpec.Type", "open_match.v2.Ticket",
   "open_match.v2.Assignment", "open_match.v2.Pool", "open_match.v2.Profile", "open_match.v2.Match", "open_match.v2.Roster",
   "open_match.v2.MatchmakingFunctionSpec", "open_match.v2.ChunkedMmfRunRequest", "open_match.v2.CreateTicketRequest",
   "open_match.v2.CreateTicketResponse", "open_match.v2.DeactivateTicketsRequest", "open_match.v2.DeactivateTicketsResponse",
   "open_match.v2.ActivateTicketsRequest", "open_match.v2.ActivateTicketsResponse", "open_match.v2.MmfRequest",
   "open_match.v2.StreamedMmfResponse", "open_match.v2.CreateAssignmentsRequest", "open_match.v2.CreateAssignmentsResponse",
   "open_match.v2.WatchAssignmentsRequest", "open_match.v2.StreamedWatchAssignmentsResponse",
   "open_match.v2.Ticket.FilterableData", "open_match.v2.Ticket.ExtensionsEntry",
   "open_match.v2.Ticket.FilterableData.StringArgsEntry", "open_match.v2.Ticket.FilterableData.DoubleArgsEntry",
   "open_match.v2.Assignment.ExtensionsEntry", "open_match.v2.Pool.TagPresentFilter", "open_match.v2.Pool.StringEqualsFilter",
   "open_match.v2.Pool.DoubleRangeFilter", "open_match.v2.Pool.CreationTimeRangeFilter", "open_match.v2.Pool.ExtensionsEntry",
   "open_match.v2.Profile.PoolsEntry", "open_match.v2.Profile.ExtensionsEntry", "open_match.v2.Match.RostersEntry",
   "open_match.v2.Match.ExtensionsEntry", "open_match.v2.Roster.ExtensionsEntry", "google.protobuf.Timestamp",
   "google.protobuf.Any"]

/-- `file_messages_proto_depIdxs`, messages.pb.go:1978-2024, without the five sub-list bounds at its end: the type of each field
that has a type of its own, in the order of the fields. -/
def depIdxs : List Nat :=
  [
   37, 22, 23, 26, 27, 28, 29, 30, 7, 31, 32, 33, 34, 35, 3, 2, 36, 1, 5, 2, 5, 8, 6, 7, 3, 24, 25, 37, 38, 38, 0, 37, 37, 0, 38,
   4, 38, 7, 38, 38]

/-- The structs of messages.pb.go:183-1593: Go name, Go type and number (from the tag) of each field. -/
def structs : List (String × List (String × String × Nat)) :=
  [
   ("Ticket", [
     ("Id", "string", 1), ("ExpirationTime", "*timestamppb.Timestamp", 2), ("Attributes", "*Ticket_FilterableData", 3),
     ("Extensions", "map[string]*anypb.Any", 4)]),
   ("Assignment", [("Connection", "string", 1), ("Extensions", "map[string]*anypb.Any", 2)]),
   ("Pool", [
     ("Name", "string", 1), ("TagPresentFilters", "[]*Pool_TagPresentFilter", 2),
     ("StringEqualsFilters", "[]*Pool_StringEqualsFilter", 3), ("DoubleRangeFilters", "[]*Pool_DoubleRangeFilter", 4),
     ("CreationTimeRangeFilter", "*Pool_CreationTimeRangeFilter", 5), ("Participants", "*Roster", 6),
     ("Extensions", "map[string]*anypb.Any", 7)]),
   ("Profile", [("Name", "string", 1), ("Pools", "map[string]*Pool", 2), ("Extensions", "map[string]*anypb.Any", 3)]),
   ("Match", [("Id", "string", 1), ("Rosters", "map[string]*Roster", 2), ("Extensions", "map[string]*anypb.Any", 3)]),
   ("Roster", [
     ("Name", "string", 1), ("Assignment", "*Assignment", 2), ("Tickets", "[]*Ticket", 3),
     ("Extensions", "map[string]*anypb.Any", 4)]),
   ("MatchmakingFunctionSpec", [
     ("Name", "string", 1), ("Host", "string", 2), ("Port", "int32", 3), ("Type", "MatchmakingFunctionSpec_Type", 4)]),
   ("ChunkedMmfRunRequest", [("Profile", "*Profile", 1), ("NumChunks", "int32", 2)]),
   ("CreateTicketRequest", [("Ticket", "*Ticket", 1)]),
   ("CreateTicketResponse", [("TicketId", "string", 1)]),
   ("DeactivateTicketsRequest", [("TicketIds", "[]string", 1)]),
   ("DeactivateTicketsResponse", []),
   ("ActivateTicketsRequest", [("TicketIds", "[]string", 1)]),
   ("ActivateTicketsResponse", []),
   ("MmfRequest", [("Profile", "*Profile", 1), ("Mmfs", "[]*MatchmakingFunctionSpec", 2)]),
   ("StreamedMmfResponse", [("Match", "*Match", 1)]),
   ("CreateAssignmentsRequest", [("AssignmentRoster", "*Roster", 1)]),
   ("CreateAssignmentsResponse", []),
   ("WatchAssignmentsRequest", [("TicketIds", "[]string", 1)]),
   ("StreamedWatchAssignmentsResponse", [("Assignment", "*Assignment", 1), ("Id", "string", 2)]),
   ("Ticket_FilterableData", [
     ("Tags", "[]string", 1), ("StringArgs", "map[string]string", 2), ("DoubleArgs", "map[string]float64", 3),
     ("CreationTime", "*timestamppb.Timestamp", 4)]),
   ("Pool_TagPresentFilter", [("Tag", "string", 1)]),
   ("Pool_StringEqualsFilter", [("StringArg", "string", 1), ("Value", "string", 2)]),
   ("Pool_DoubleRangeFilter", [
     ("DoubleArg", "string", 1), ("Minimum", "float64", 2), ("Maximum", "float64", 3), ("Bounds", "Pool_FilterBounds", 4)]),
   ("Pool_CreationTimeRangeFilter", [
     ("Start", "*timestamppb.Timestamp", 6), ("End", "*timestamppb.Timestamp", 7), ("Bounds", "Pool_FilterBounds", 4)])]

/-! ## Reading a descriptor

descriptor.proto: a file has its package in field 2, messages in 4, enums in 5, services in 6, options in 8 and its syntax in 12; a
message its name in 1, fields in 2, nested messages in 3, nested enums in 4, options in 7. -/

def num (n : Nat) (fs : List Field) : Nat := (ints n fs).getLast?.getD 0

/-- `FieldDescriptorProto`. -/
structure FieldDecl where
  name : Str
  number : Nat
  repeated : Bool
  /-- 1 double, 5 int32, 9 string, 11 message, 14 enum -/
  type : Nat
  typeName : Str
  json : Str
  deriving DecidableEq

def toFieldDecl (fs : List Field) : FieldDecl :=
  ⟨getStr 1 fs, num 3 fs, num 4 fs == 3, num 5 fs, getStr 6 fs, getStr 10 fs⟩

/-- `DescriptorProto`, with its full name; `mapEntry` is the option of the messages that protoc makes up for maps. -/
structure MsgDecl where
  name : Str
  mapEntry : Bool
  fields : List FieldDecl
  deriving DecidableEq

abbrev Node := Str × List Field

def node (scope : Str) (s : Str) : Node := (scope ++ '.' :: getStr 1 (parse s), parse s)

def kids (m : Node) : List Node := (lens 3 m.2).map (node m.1)

/-- The messages within a message: those one level down, then what is within each of them. -/
def below : Nat → Node → List Node
  | 0, _ => []
  | k + 1, m => kids m ++ (kids m).flatMap (below k)

/-- internal/filetype/build.go: all messages of a file in "flattened ordering". -/
def nodes (raw : Str) : List Node :=
  let file := parse raw
  let top := (lens 4 file).map (node (getStr 2 file))
  top ++ top.flatMap (below raw.length)

def toMsgDecl (m : Node) : MsgDecl :=
  ⟨m.1, num 7 (((lens 7 m.2).map parse).flatten) == 1, (lens 2 m.2).map fun s => toFieldDecl (parse s)⟩

def messages (raw : Str) : List MsgDecl := (nodes raw).map toMsgDecl

/-- `EnumDescriptorProto`s of the messages: full name, names and numbers. -/
def enums (raw : Str) : List (Str × List (Str × Nat)) :=
  (nodes raw).flatMap fun m => (lens 4 m.2).map fun s =>
    ((node m.1 s).1, (lens 2 (parse s)).map fun v => (getStr 1 (parse v), num 2 (parse v)))

/-- `MethodDescriptorProto`: name, request, response, whether the client and the server stream. -/
structure MethodDecl where
  name : Str
  input : Str
  output : Str
  clientStreams : Bool
  serverStreams : Bool
  deriving DecidableEq

def toMethodDecl (fs : List Field) : MethodDecl := ⟨getStr 1 fs, getStr 2 fs, getStr 3 fs, num 5 fs == 1, num 6 fs == 1⟩

def services (raw : Str) : List (Str × List MethodDecl) :=
  (lens 6 (parse raw)).map fun s =>
    ((node (getStr 2 (parse raw)) s).1, (lens 2 (parse s)).map fun m => toMethodDecl (parse m))

/-! ## The types of fields

internal/filetype/build.go, `resolverByIndex`: the fields that have a type of their own take the entries of `depIdxs` in turn. -/

/-- What a field's content of wire type 2 is read as. -/
inductive Kind where
  | text
  | message (i : Nat)
  | other
  deriving DecidableEq

def kindOf (f : FieldDecl) (dep : Nat) : Kind := if f.type = 9 then .text else if f.type = 11 then .message dep else .other

def resolve : List Nat → List FieldDecl → List (Nat × Kind) × List Nat
  | ds, [] => ([], ds)
  | ds, f :: fs =>
    if f.type = 11 ∨ f.type = 14 then
      let r := resolve ds.tail fs
      ((f.number, kindOf f (ds.headD 0)) :: r.1, r.2)
    else
      let r := resolve ds fs
      ((f.number, kindOf f 0) :: r.1, r.2)

def resolveAll : List Nat → List MsgDecl → List (List (Nat × Kind))
  | _, [] => []
  | ds, m :: ms => (resolve ds m.fields).1 :: resolveAll (resolve ds m.fields).2 ms

/-- The fields of each type of `goTypes`: two enums, the messages of the file, Timestamp and Any (timestamp.proto, any.proto). -/
def table : List (List (Nat × Kind)) :=
  [[], []] ++ resolveAll depIdxs (messages rawMessages) ++ [[(1, .other), (2, .other)], [(1, .text), (2, .other)]]

/-- internal/impl/codec_field.go, `fieldCoder`: a string is checked for UTF-8, a message is read by the coder of its type. -/
def coder (T : List (List (Nat × Kind))) : Nat → Nat → Content
  | 0, _ => []
  | k + 1, i => (T.getD i []).filterMap fun p => match p.2 with
    | .text => some (p.1, utf8Valid)
    | .message j => some (p.1, wellFormed (coder T k j))
    | .other => none

/-- `proto.Unmarshal` into the `i`-th type (every type is at most as deep as there are types). -/
def canUnmarshal (i : Nat) (b : Str) : Bool := wellFormed (coder table table.length i) b

/-! ## The gRPC service tables -/

/-- `grpc.ServiceDesc`: the methods and streams with what their handlers read, call and send. -/
structure ServiceDesc (F : Type) where
  name : Str
  methods : List (Str × F × Str × Str)
  streams : List (Str × F × Str × Str)

def entry {F : Type} (name : String) (f : F) (input output : String) : Str × F × Str × Str :=
  (name.toList, f, input.toList, output.toList)

/-- `OpenMatchService_ServiceDesc`, api_grpc.pb.go:422-456, with the handlers of :305-417. -/
def openMatch : ServiceDesc Gw.Rpc where
  name := "open_match.v2.OpenMatchService".toList
  methods :=
    [entry "CreateTicket" .createTicket "CreateTicketRequest" "CreateTicketResponse",
     entry "DeactivateTickets" .deactivateTickets "DeactivateTicketsRequest" "DeactivateTicketsResponse",
     entry "ActivateTickets" .activateTickets "ActivateTicketsRequest" "ActivateTicketsResponse",
     entry "CreateAssignments" .createAssignments "CreateAssignmentsRequest" "CreateAssignmentsResponse"]
  streams :=
    [entry "InvokeMatchmakingFunctions" .invokeMmfs "MmfRequest" "StreamedMmfResponse",
     entry "WatchAssignments" .watchAssignments "WatchAssignmentsRequest" "StreamedWatchAssignmentsResponse"]

/-- `MatchMakingFunctionService_ServiceDesc`, mmf_grpc.pb.go:151-164. -/
def mmfService : ServiceDesc Unit where
  name := "open_match.v2.MatchMakingFunctionService".toList
  methods := []
  streams := [entry "Run" () "ChunkedMmfRunRequest" "StreamedMmfResponse"]

/-- The paths that the generated clients call: api_grpc.pb.go:43-48. -/
def clientPath : Gw.Rpc → Str
  | .createTicket => "/open_match.v2.OpenMatchService/CreateTicket".toList
  | .deactivateTickets => "/open_match.v2.OpenMatchService/DeactivateTickets".toList
  | .activateTickets => "/open_match.v2.OpenMatchService/ActivateTickets".toList
  | .invokeMmfs => "/open_match.v2.OpenMatchService/InvokeMatchmakingFunctions".toList
  | .createAssignments => "/open_match.v2.OpenMatchService/CreateAssignments".toList
  | .watchAssignments => "/open_match.v2.OpenMatchService/WatchAssignments".toList

/-- mmf_grpc.pb.go:36: the path that om-core calls. -/
def mmfPath : Str := "/open_match.v2.MatchMakingFunctionService/Run".toList

/-- What a gRPC server does with a call: run a function, or answer with the code "unimplemented". -/
inductive Routed (F : Type) where
  | calls (f : F)
  | unimplemented
  deriving DecidableEq

/-- `strings.LastIndex(s, "/")`: what is before it and what is behind. -/
def cutLast : Str → Option (Str × Str)
  | [] => none
  | c :: s =>
    match cutLast s with
    | some (a, m) => some (c :: a, m)
    | none => if c = '/' then some ([], s) else none

/-- grpc-go v1.62.1 (core/go.mod:27), server.go, `handleStream`, for a server with one service.  The texts of the errors are left out. -/
def route {F : Type} (d : ServiceDesc F) (path : Str) : Routed F :=
  match cutLast (match path with | '/' :: p => p | p => p) with
  | none => .unimplemented
  | some (service, method) =>
    if service = d.name then
      match d.methods.find? fun e => e.1 = method with
      | some e => .calls e.2.1
      | none =>
        match d.streams.find? fun e => e.1 = method with
        | some e => .calls e.2.1
        | none => .unimplemented
    else .unimplemented

end OM.Desc

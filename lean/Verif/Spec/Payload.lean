import Verif.Model.Payload
/-! # The two documented payload formats, as JSON documents -/
namespace Tsgolint.Payload

/-- The V1 document for a list of (file path, rule names), with arbitrary further members. -/
def v1Doc (files : List (String × List String)) (extra : List (String × Json)) : Json :=
  .obj (("files", .arr (files.map fun f =>
    .obj [("file_path", .str f.1), ("rules", .arr (f.2.map .str))])) :: extra)

/-- The V2 document with one config per file, in order, each naming that one file and the same rules without options. -/
def v2Doc (files : List (String × List String)) : Json :=
  .obj [("version", .int 2), ("configs", .arr (files.map fun f =>
    .obj [("file_paths", .arr [.str f.1]), ("rules", .arr (f.2.map fun r => .obj [("name", .str r)]))]))]

/-- The general V2 document. -/
def fullV2Doc (p : Payload) : Json :=
  .obj [("version", .int 2),
    ("configs", .arr (p.configs.map fun c => .obj [("file_paths", .arr (c.filePaths.map .str)),
      ("rules", .arr (c.rules.map fun r => .obj [("name", .str r.name), ("options", r.options.getD .null)]))])),
    ("source_overrides", .obj (p.sourceOverrides.map fun kv => (kv.1, .str kv.2))),
    ("report_syntactic", .bool p.reportSyntactic), ("report_semantic", .bool p.reportSemantic)]

/-- The value of the top-level `version` member: `none` when there is no such member. -/
def versionMember : Json → Option Json
  | .obj m => (m.find? (fun kv => kv.1 = "version")).map (·.2)
  | _ => none

end Tsgolint.Payload

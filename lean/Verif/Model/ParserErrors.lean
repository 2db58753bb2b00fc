import Verif.Model.ErrorText
import Verif.Model.MakeSettings
import Verif.Model.Source

/-!
# The messages for settings files and source files, and what the programs print
-/

namespace Blogc

/-- The messages of src/common/config-parser.c:126-127, 164-165, 189-190, 230-232 and 281-283. -/
def Config.message : Config.Err → Str
  | .mustStartWithSection => b!"File must start with section."
  | .sectionNewline => b!"Section names can't have new lines."
  | .keyWithoutValue k => b!"Key without value: " ++ k ++ b!"."
  | .afterQuotedValue => b!"Invalid value for key, should not have anything after quotes."
  | .afterQuotedItem => b!"Invalid value for list item, should not have anything after quotes."

/-- What blogc-make prints for an error in the settings file `src` (src/blogc-make/main.c:115-116): the errors of
`bc_config_parse` carry a position (lines as for `Config.message`), those of src/blogc-make/settings.c:121-123, 134-136
and 152-154 do not. -/
def settingsComplaint (src : Str) : MakeSettings.Err → Res Str
  | .syntax (e, n) => (errText src n (Config.message e)).map (errPrint (some b!"blogc-make") .config)
  | .firstChar sec key => .ok (errPrint (some b!"blogc-make") .settings
      (b!"Invalid [" ++ sec ++ b!"] key (first character must be uppercase): " ++ key))
  | .otherChar sec key => .ok (errPrint (some b!"blogc-make") .settings
      (b!"Invalid [" ++ sec ++ b!"] key (must be uppercase with '_' and digits after first character): " ++ key))
  | .required sec key => .ok (errPrint (some b!"blogc-make") .settings
      (b!"[" ++ sec ++ b!"] key required but not found or empty: " ++ key))

/-- The messages of src/blogc/source-parser.c:60-62, 93-95, 101-102, 135-137, 188-191, 225-226, 229-231, 234-236 and
239-241. Printing a null key with `%s` is undefined. -/
def Source.message : Source.Err → Res Str
  | .noKeyOrSeparator => .ok b!"Can't find a configuration key or the content separator."
  | .forbidden k =>
    .ok (b!"'" ++ k ++ b!"' variable is forbidden in source files. It will be set for you by the compiler.")
  | .invalidKey => .ok b!"Invalid configuration key."
  | .invalidSeparator => .ok b!"Invalid content separator. Must be more than one '-' characters."
  | .invalidMaxdepth v => .ok (b!"Invalid value for 'TOCTREE_MAXDEPTH' variable: " ++ v ++ b!".")
  | .empty => .ok b!"Your source file is empty."
  | .missingColon => .ok b!"Your last configuration key is missing ':' and the value"
  | .missingValue (some k) => .ok (b!"Configuration value not provided for '" ++ k ++ b!"'.")
  | .missingNewline (some k) => .ok (b!"No line ending after the configuration value for '" ++ k ++ b!"'.")
  | .missingValue none => .ub
  | .missingNewline none => .ub

/-- The error of `blogc_source_parse` for the source `src`: all but one carry a position, src/blogc/source-parser.c:93-95
and the other lines given for `Source.message`. -/
def sourceText (src : Str) : Source.Err × Nat → Res Str
  | (.forbidden k, _) => Source.message (.forbidden k)
  | (e, n) => (Source.message e).bind (errText src n)

/-- What blogc prints for an error in the source file at `path`, src/blogc/loader.c:147-150 and src/blogc/main.c:292-294. -/
def sourceComplaint (path src : Str) (e : Source.Err × Nat) : Res Str :=
  (sourceText src e).map fun t => errPrint (some b!"blogc") .loader
    (b!"An error occurred while parsing source file: " ++ path ++ b!"\n\n" ++ t)

/-- What blogc prints for an error in a source file given with `-e`, src/blogc/main.c:305-307. -/
def entryComplaint (src : Str) (e : Source.Err × Nat) : Res Str :=
  (sourceText src e).map (errPrint (some b!"blogc") .source)

end Blogc

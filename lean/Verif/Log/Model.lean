/-!
# The log of a page

Model of `apps/wasm/mvp/src/logger.rs` (the same file is in `apps/wasm/mina-berkeley/src`), of `init_logger`
(`apps/wasm/mvp/src/js_exports.rs:69-74`, `apps/wasm/mina-berkeley/src/js_exports.rs:68-73`) and of the part of the `log`
crate they use: a level that is asked before a record is made, and one logger that can be set once.

Simplification: a message is the text its arguments print as.  The code is single-threaded (WebAssembly), so a history
is a list of calls.
-/
namespace MinaRs.Log

/-- Text, as its characters (`apps/wasm/mvp/src/logger.rs:10`). -/
abbrev Text := List Char

/-- `log::Level`, the most severe first (used at `apps/wasm/mvp/src/logger.rs:44-76`). -/
inductive Level where
  | error
  | warn
  | info
  | debug
  | trace
  deriving DecidableEq, Repr

/-- `log::Level as usize` (used at `apps/wasm/mvp/src/logger.rs:44-76`) -/
def Level.toNat : Level → Nat
  | .error => 1
  | .warn => 2
  | .info => 3
  | .debug => 4
  | .trace => 5

/-- `Display` of `log::Level` (used at `apps/wasm/mvp/src/logger.rs:44-76`) -/
def Level.text : Level → Text
  | .error => "ERROR".toList
  | .warn => "WARN".toList
  | .info => "INFO".toList
  | .debug => "DEBUG".toList
  | .trace => "TRACE".toList

/-- `log::Record`: level, target and message (used at `apps/wasm/mvp/src/logger.rs:44-76`). -/
structure Record where
  level : Level
  target : Text
  message : Text
  deriving DecidableEq, Repr

/-- `logger.rs:58-62` (`record_to_string`) -/
def recordToString (r : Record) : Text :=
  '[' :: (r.level.text ++ (']' :: '[' :: (r.target ++ (']' :: ':' :: ' ' :: r.message))))

/-- `logger.rs:44-47` (`JsExportableLogger`) -/
structure Logger where
  maxLevel : Level

/-- `js_exports.rs:71` (`JS_LOGGER`) -/
def jsLogger : Logger := ⟨.debug⟩

/-- What the page and the `log` crate hold: the filter (`log::set_max_level`; `none` is `Off`, where it begins), the
logger that is set, the page's log text (`logger.rs:10`, the variable `logText`) and what was printed to the console. -/
structure St where
  filter : Option Level
  logger : Option Logger
  logText : Text
  console : List Text

/-- The state when the page has loaded (`logger.rs:10`). -/
def St.init : St := ⟨none, none, [], []⟩

/-- `logger.rs:66-68` (`enabled`) -/
def Logger.enabled (l : Logger) (r : Record) : Bool := r.level.toNat ≤ l.maxLevel.toNat

/-- `logger.rs:20-22` (`append_log_record`) -/
def appendLogRecord (logText record : Text) : Text := logText ++ '\n' :: record

/-- `logger.rs:70-76` (`log`) -/
def Logger.log (l : Logger) (r : Record) (s : St) : St :=
  if l.enabled r then
    let t := recordToString r
    { s with console := s.console ++ [t], logText := appendLogRecord s.logText t }
  else s

/-- The macros of the `log` crate: a record is made if its level passes the filter and is given to the logger that is
set, or else to one that does nothing (used at `apps/wasm/mvp/src/logger.rs:44-76`). -/
def record (r : Record) (s : St) : St :=
  match s.filter with
  | none => s
  | some f =>
    if r.level.toNat ≤ f.toNat then
      match s.logger with
      | none => s
      | some l => l.log r s
    else s

/-- `js_exports.rs:70-74` (`init_logger`); `log::set_logger` refuses a second logger.  The answer is `true` for `Ok`. -/
def initLogger (s : St) : Bool × St :=
  let s := { s with filter := some jsLogger.maxLevel }
  match s.logger with
  | none => (true, { s with logger := some jsLogger })
  | some _ => (false, s)

/-- `logger.rs:16-18, 35-37` (`clear_log`) -/
def clearLog (s : St) : St := { s with logText := [] }

/-- `logger.rs:12-14, 40-42` (`get_log_text`) -/
def getLogText (s : St) : Text := s.logText

/-- What happens in a page, as far as its log is concerned (`apps/wasm/mvp/src/js_exports.rs:69-74`). -/
inductive Ev where
  | init
  | record (r : Record)
  | clear
  deriving DecidableEq, Repr

/-- One call (`apps/wasm/mvp/src/js_exports.rs:69-74`, `apps/wasm/mvp/src/logger.rs:35-76`). -/
def step (s : St) : Ev → St
  | .init => (initLogger s).2
  | .record r => record r s
  | .clear => clearLog s

/-- A history of calls from the loading of the page (`apps/wasm/mvp/src/js_exports.rs:69-74`). -/
def run (h : List Ev) : St := h.foldl step St.init

end MinaRs.Log

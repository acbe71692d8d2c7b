import Verif.Model.JsonText
import Verif.Model.Main

/-! # The file with the user name and the password

`--broker-auth` is a `FileType('rt')` (cmqttd.py:350-357): `open(path, 'rt')`, without an
encoding, so the bytes are decoded with the encoding of the locale
(`locale.getpreferredencoding(False)`), and lines end as in any system (universal
newlines). `read_auth` (cmqttd.py:267-271) reads from the open file.

Simplification: `TextIOWrapper` decodes 8192 bytes at a time, so in a longer file it may
not see a mistake behind the second line. Here it sees them all. -/

namespace CBus.Daemon

/-- The encoding of a locale: the text of bytes, or an error (`UnicodeDecodeError`). -/
abbrev Charset := Bytes → Option Str

/-- `utf-8`. -/
def Charset.utf8 : Charset := Json.utf8Text

/-- `iso8859-1`: the byte is the number of the character. -/
def Charset.latin1 : Charset := fun b => some (b.map fun x => Char.ofNat x.toNat)

/-- Universal newlines: `'\r\n'` and `'\r'` are read as `'\n'`. -/
def newlines : Str → Str
  | [] => []
  | '\r' :: '\n' :: r => '\n' :: newlines r
  | '\r' :: r => '\n' :: newlines r
  | c :: r => c :: newlines r

/-- The text of a file. `UnicodeDecodeError` is a `ValueError`. -/
def fileText (charset : Charset) (content : Bytes) : Py Str :=
  match charset content with
  | some t => .ok (newlines t)
  | none => .error .valueError

/-- cmqttd.py:267-271 `read_auth` with a file. -/
def readAuthFile (charset : Charset) (u : UniTable) (content : Bytes) : Py (Str × Str) :=
  (fileText charset content).map (readAuth u)

/-- `_main`, cmqttd.py:421-469, with the content of the file. It is read after the
connection to the PCI is made (cmqttd.py:442-452). -/
def mainFile (charset : Charset) (env : Cbz.Env) (o : Options) (content : Bytes) : List Act × End :=
  match fileText charset content with
  | .ok t => main env { o with auth := some t }
  | .error e =>
    match main env { o with auth := none } with
    | (act :: _, .running _) => ([act], .raised e)
    | r => r

end CBus.Daemon

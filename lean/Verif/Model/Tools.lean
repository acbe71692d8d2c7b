import Verif.Model.Decode
import Verif.Model.Text

/-! # Command-line tools

`/repo/cbus/tools/decode_packet.py` and `/repo/cbus/tools/fetch_protocol_docs.py`.
Not modelled: `argparse` apart from its use of `type=`, the HTTP and HTML parsers,
`urllib`. -/

namespace CBus.Tools
open CBus

/-! ## decode_packet -/

/-- How the tool ends: the command line is refused, an exception, or it prints a
packet (or `None`). -/
inductive DecodeEnd
  | usage | raised (e : PyErr) | printed (p : Option Packet)

/-- `pretty_packet`, decode_packet.py:28-35. -/
def prettyPacket (packet : Bytes) (checksum strict serverPacket : Bool) : DecodeEnd :=
  match decodePacket packet checksum strict serverPacket with
  | .ok (p, _) => .printed p
  | .error e => .raised e

/-- `bytes(s)` of a `str` without an encoding, the `type=bytes` of decode_packet.py:44: in
Python 3 it raises `TypeError`. -/
def bytesOfStr (_ : Str) : Py Bytes := .error .typeError

/-- `main`, decode_packet.py:38-69. `argparse` refuses an argument if its type raises
`TypeError` or `ValueError`. -/
def decodeMain (arg : Str) (checksum strict server : Bool) : DecodeEnd :=
  match bytesOfStr arg with
  | .ok packet => prettyPacket packet checksum strict server
  | .error _ => .usage

/-! ## fetch_protocol_docs -/

/-- A link: the parts of `urlparse(...)`, of which the last three (parameters, query and
fragment) are only used together, in the request. -/
structure Link where
  scheme : Str
  netloc : Str
  path : Str
  rest : Str
  deriving DecidableEq, Repr

/-- The parts of `urllib` and `str` that are used: `urlparse(urljoin(index, href))`,
where `href` may be `None`; `str.lower`; and `unquote`, which leaves text without
percent signs alone and turns `%2F` into a slash. -/
structure Web where
  parse : Option Str → Link
  lower : Str → Str
  unquote : Str → Str
  netloc : Str
  ascii_lower : ∀ s : Str, (∀ c ∈ s, c.toNat < 128) → lower s = s.map Char.toLower
  unquote_plain : ∀ s, '%' ∉ s → unquote s = s
  unquote_slash : ∀ s, '%' ∉ s → unquote ("%2F".toList ++ s) = '/' :: s

/-- `DocumentationParser.handle_starttag`, fetch_protocol_docs.py:38-52. -/
def handleStartTag (w : Web) (links : List Link) (tag : Str) (attrs : List (Str × Option Str)) : List Link :=
  if w.lower tag = "a".toList then
    match attrs.find? fun kv => w.lower kv.1 = "href".toList with
    | some kv =>
      let href := w.parse kv.2
      if (href.scheme = "http".toList ∨ href.scheme = "https".toList) ∧ href.netloc = w.netloc ∧
          Str.endsWith href.path ".pdf".toList then links ++ [href]
      else links
    | none => links
  else links

/-- The part of a path after the last slash, `path.split('/')[-1]`. -/
def lastPart (path : Str) : Str := (path.reverse.takeWhile (· ≠ '/')).reverse

/-- `os.path.join(a, b)` of POSIX. -/
def joinPath (a b : Str) : Str :=
  if Str.startsWith b ['/'] then b
  else if a = [] ∨ Str.endsWith a ['/'] then a ++ b
  else a ++ '/' :: b

/-- The name of the file for a link, fetch_protocol_docs.py:70-71. -/
def fileName (w : Web) (destination : Str) (link : Link) : Str :=
  joinPath destination (w.unquote (lastPart link.path))

/-- The names of the files that exist, and of those that were written. -/
structure Disk where
  exists_ : List Str
  written : List Str := []
  deriving DecidableEq, Repr

/-- `download_file`, fetch_protocol_docs.py:55-85. -/
def downloadFile (w : Web) (destination : Str) (d : Disk) (link : Link) : Disk :=
  let fname := fileName w destination link
  if fname ∈ d.exists_ then d
  else ⟨fname :: d.exists_, d.written ++ [fname]⟩

/-- `download_docs`, fetch_protocol_docs.py:88-111, for a destination that is (or becomes) a directory:
the terms, then the links of the index page. `tags` are the start tags of the page. -/
def downloadDocs (w : Web) (destination : Str) (terms : Link) (tags : List (Str × List (Str × Option Str)))
    (d : Disk) : Disk :=
  let links := tags.foldl (fun ls t => handleStartTag w ls t.1 t.2) []
  links.foldl (downloadFile w destination) (downloadFile w destination d terms)

end CBus.Tools

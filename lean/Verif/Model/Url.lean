import Verif.Model.Dump
import Verif.Model.Downloads

/-! # The links of fetch_protocol_docs

`/repo/cbus/tools/fetch_protocol_docs.py:27-52` with the functions of `urllib.parse` that it
uses, as they are in Python 3.7 (`.travis.yml:3`): `urlsplit`, `urlparse`, `urlunsplit`,
`urlunparse`, `urljoin` and `unquote`. -/

namespace CBus.Url
open CBus

/-- What of Unicode is used: `unicodedata.normalize('NFKC', s)`, `b.decode('utf-8', 'replace')` and
`str.lower`, which are the expected ones for ASCII. -/
structure Env where
  nfkc : Str → Str
  decode : Bytes → Str
  lower : Str → Str
  decode_ascii : ∀ b : Bytes, (∀ x ∈ b, x.toNat < 128) → decode b = b.map fun x => Char.ofNat x.toNat
  ascii_lower : ∀ s : Str, (∀ c ∈ s, c.toNat < 128) → lower s = s.map Char.toLower

/-- `SplitResult`. -/
structure Split where
  scheme : Str
  netloc : Str
  path : Str
  query : Str
  fragment : Str
  deriving DecidableEq, Repr

/-- `ParseResult`. -/
structure Parsed extends Split where
  params : Str
  deriving DecidableEq, Repr

/-- `uses_relative`. -/
def usesRelative : List Str :=
  ["", "ftp", "http", "gopher", "nntp", "imap", "wais", "file", "https", "shttp", "mms", "prospero", "rtsp", "rtspu",
   "sftp", "svn", "svn+ssh", "ws", "wss"].map String.toList

/-- `uses_netloc`. -/
def usesNetloc : List Str :=
  ["", "ftp", "http", "gopher", "nntp", "telnet", "imap", "wais", "file", "mms", "https", "shttp", "snews", "prospero",
   "rtsp", "rtspu", "rsync", "svn", "svn+ssh", "sftp", "nfs", "git", "git+ssh", "ws", "wss"].map String.toList

/-- `uses_params`. -/
def usesParams : List Str :=
  ["", "ftp", "hdl", "prospero", "http", "imap", "https", "shttp", "rtsp", "rtspu", "sip", "sips", "mms", "sftp",
   "tel"].map String.toList

/-- `scheme_chars`. -/
def schemeChar (c : Char) : Bool := c.isAlphanum || c == '+' || c == '-' || c == '.'

/-- `s.split(c, 1)` if there is a `c`, otherwise `s` and nothing. -/
def cut (c : Char) (s : Str) : Str × Str := (s.takeWhile (· ≠ c), (s.dropWhile (· ≠ c)).drop 1)

/-- Whether a character ends the network location, `_splitnetloc`. -/
def endsNetloc (c : Char) : Bool := c == '/' || c == '?' || c == '#'

/-- `_checknetloc`: whether there is no character that would be changed to a delimiter. -/
def netlocOk (e : Env) (netloc : Str) : Bool :=
  netloc.all (·.toNat < 128) ||
  let n := netloc.filter fun c => !(c == '@' || c == ':' || c == '#' || c == '?')
  let n2 := e.nfkc n
  n == n2 || !(n2.any fun c => c == '/' || c == '?' || c == '#' || c == '@' || c == ':')

/-- Whether what is before the first colon is a scheme. The first condition is the shortcut for
`http`, which is otherwise treated like the others. -/
def hasScheme (url : Str) : Bool :=
  let pre := (cut ':' url).1
  let rest := (cut ':' url).2
  url.contains ':' && pre ≠ [] &&
    (pre == "http".toList || pre.all schemeChar && (rest == [] || rest.any fun c => !c.isDigit))

/-- `urlsplit(url, scheme)`. -/
def urlsplit (e : Env) (url scheme : Str) : Py Split :=
  let su := if hasScheme url then ((cut ':' url).1.map Char.toLower, (cut ':' url).2) else (scheme, url)
  let nu := if su.2.take 2 = ['/', '/'] then
      ((su.2.drop 2).takeWhile fun c => !endsNetloc c, (su.2.drop 2).dropWhile fun c => !endsNetloc c)
    else ([], su.2)
  if nu.1.contains '[' ≠ nu.1.contains ']' then .error .valueError
  else
    let uf := cut '#' nu.2
    let uq := cut '?' uf.1
    if netlocOk e nu.1 then .ok ⟨su.1, nu.1, uq.1, uq.2, uf.2⟩
    else .error .valueError

/-- `_splitparams`: at the first semicolon of the last part of the path. -/
def splitParams (path : Str) : Str × Str :=
  let last := Tools.lastPart path
  (path.take (path.length - last.length) ++ (cut ';' last).1, (cut ';' last).2)

/-- `urlparse(url, scheme)`. -/
def urlparse (e : Env) (url scheme : Str) : Py Parsed :=
  match urlsplit e url scheme with
  | .error x => .error x
  | .ok s =>
    if s.scheme ∈ usesParams ∧ ';' ∈ s.path then .ok ⟨{ s with path := (splitParams s.path).1 }, (splitParams s.path).2⟩
    else .ok ⟨s, []⟩

/-- `urlunsplit`. -/
def urlunsplit (s : Split) : Str :=
  let url := if s.netloc ≠ [] ∨ s.scheme ≠ [] ∧ s.scheme ∈ usesNetloc ∧ s.path.take 2 ≠ ['/', '/'] then
      ['/', '/'] ++ s.netloc ++ (if s.path ≠ [] ∧ s.path.head? ≠ some '/' then '/' :: s.path else s.path)
    else s.path
  (if s.scheme ≠ [] then s.scheme ++ [':'] else []) ++ url ++ (if s.query ≠ [] then '?' :: s.query else []) ++
    (if s.fragment ≠ [] then '#' :: s.fragment else [])

/-- `urlunparse`. -/
def urlunparse (p : Parsed) : Str :=
  urlunsplit (if p.params ≠ [] then { p.toSplit with path := p.path ++ ';' :: p.params } else p.toSplit)

/-- `segments[1:-1] = filter(None, segments[1:-1])`. -/
def dropEmpty : List Str → List Str
  | [] => []
  | s :: rest => s :: (rest.dropLast.filter (· ≠ []) ++ rest.getLast?.toList)

/-- `for seg in segments: ...`, `resolved_path` at the end. -/
def resolveGo : List Str → List Str → List Str
  | done, [] => done
  | done, seg :: rest =>
    if seg = "..".toList then resolveGo done.dropLast rest
    else if seg = ".".toList then resolveGo done rest
    else resolveGo (done ++ [seg]) rest

/-- `'/'.join(l)`. -/
def joinSlash : List Str → Str
  | [] => []
  | [s] => s
  | s :: rest => s ++ '/' :: joinSlash rest

/-- The segments that are joined. -/
def segmentsOf (bpath path : Str) : List Str :=
  if path.head? = some '/' then splitOn '/' path
  else
    let parts := splitOn '/' bpath
    dropEmpty ((if parts.getLast? ≠ some [] then parts.dropLast else parts) ++ splitOn '/' path)

/-- The path that `urljoin` computes. -/
def resolvePath (bpath path : Str) : Str :=
  let segments := segmentsOf bpath path
  let resolved := resolveGo [] segments
  let resolved := if segments.getLast? = some ".".toList ∨ segments.getLast? = some "..".toList then resolved ++ [[]] else resolved
  if joinSlash resolved = [] then ['/'] else joinSlash resolved

/-- `urljoin(base, url)`. -/
def urljoin (e : Env) (base url : Str) : Py Str :=
  if base = [] then .ok url
  else if url = [] then .ok base
  else
    match urlparse e base [] with
    | .error x => .error x
    | .ok b =>
      match urlparse e url b.scheme with
      | .error x => .error x
      | .ok r =>
        if r.scheme ≠ b.scheme ∨ r.scheme ∉ usesRelative then .ok url
        else if r.scheme ∈ usesNetloc ∧ r.netloc ≠ [] then .ok (urlunparse r)
        else
          let netloc := if r.scheme ∈ usesNetloc then b.netloc else r.netloc
          if r.path = [] ∧ r.params = [] then
            .ok (urlunparse ⟨⟨r.scheme, netloc, b.path, if r.query = [] then b.query else r.query, r.fragment⟩, b.params⟩)
          else .ok (urlunparse ⟨⟨r.scheme, netloc, resolvePath b.path r.path, r.query, r.fragment⟩, r.params⟩)

/-- The value of a hexadecimal digit of either case. -/
def hexDigitVal (c : UInt8) : Option Nat :=
  if 97 ≤ c.toNat ∧ c.toNat ≤ 102 then some (c.toNat - 87) else hexVal c

/-- `unquote_to_bytes`. -/
def unquoteBytes : Bytes → Bytes
  | [] => []
  | [a] => [a]
  | [a, b] => [a, b]
  | p :: a :: b :: rest =>
    if p = 0x25 then
      match hexDigitVal a, hexDigitVal b with
      | some x, some y => UInt8.ofNat (x * 16 + y) :: unquoteBytes rest
      | _, _ => p :: unquoteBytes (a :: b :: rest)
    else p :: unquoteBytes (a :: b :: rest)

/-- `unquote` for the parts of ASCII characters and the others in between; `run` is the part that
is being read. -/
def unquoteGo (e : Env) (run : Bytes) : Str → Str
  | [] => e.decode (unquoteBytes run)
  | c :: rest =>
    if c.toNat < 128 then unquoteGo e (run ++ [UInt8.ofNat c.toNat]) rest
    else e.decode (unquoteBytes run) ++ c :: unquoteGo e [] rest

/-- `unquote`. -/
def unquote (e : Env) (s : Str) : Str := if '%' ∈ s then unquoteGo e [] s else s

/-- `DOCUMENTATION_INDEX`, fetch_protocol_docs.py:27-28. -/
def indexUrl : Str :=
  ("https://updates.clipsal.com/ClipsalSoftwareDownload" ++ "/DL/downloads/OpenCBus/OpenCBusProtocolDownloads.html").toList

/-- `TERMS_URL`, fetch_protocol_docs.py:30-31. -/
def termsUrl : Str :=
  ("https://updates.clipsal.com/ClipsalSoftwareDownload/DL/downloads" ++
   "/OpenCBus/Open%20C-Bus%20Serial%20Protocol%20Agreement.pdf").toList

/-- `DOCUMENTATION_INDEX_U.netloc`, fetch_protocol_docs.py:29. -/
def indexHost : Str := "updates.clipsal.com".toList

/-- `urlparse(urljoin(DOCUMENTATION_INDEX, v))`, fetch_protocol_docs.py:45. `None` is like no text. -/
def hrefLink (e : Env) (v : Option Str) : Py Parsed :=
  match urljoin e indexUrl (v.getD []) with
  | .error x => .error x
  | .ok t => urlparse e t []

/-- `DocumentationParser.handle_starttag`, fetch_protocol_docs.py:38-52. -/
def startTag (e : Env) (links : List Parsed) (tag : Str) (attrs : List (Str × Option Str)) : Py (List Parsed) :=
  if e.lower tag = "a".toList then
    match attrs.find? fun kv => e.lower kv.1 = "href".toList with
    | some kv =>
      match hrefLink e kv.2 with
      | .error x => .error x
      | .ok href =>
        if (href.scheme = "http".toList ∨ href.scheme = "https".toList) ∧ href.netloc = indexHost ∧
            Str.endsWith href.path ".pdf".toList then .ok (links ++ [href])
        else .ok links
    | none => .ok links
  else .ok links

/-- The links of a page, `parser.feed`, fetch_protocol_docs.py:101-103. -/
def pageLinks (e : Env) : List Parsed → List (Str × List (Str × Option Str)) → Py (List Parsed)
  | links, [] => .ok links
  | links, t :: ts =>
    match startTag e links t.1 t.2 with
    | .error x => .error x
    | .ok links => pageLinks e links ts

/-- A parsed link as in `Model/Tools.lean`. -/
def toLink (p : Parsed) : Tools.Link :=
  ⟨p.scheme, p.netloc, p.path, (if p.params ≠ [] then ';' :: p.params else []) ++ (if p.query ≠ [] then '?' :: p.query else []) ++
    (if p.fragment ≠ [] then '#' :: p.fragment else [])⟩

/-- `download_file`, fetch_protocol_docs.py:69-85; `get` answers the requests for addresses. `false` is the
exception of a request that fails. -/
def saveFile (e : Env) (get : Str → Option Tools.Answer) (destination : Str) (d : Tools.Contents) (link : Parsed) :
    Tools.Contents × Bool :=
  let uri := urlunparse link
  let fname := Tools.joinPath destination (unquote e (Tools.lastPart link.path))
  if fname ∈ d.map (·.1) then (d, true)
  else
    match get uri with
    | some a => (d ++ [(fname, a.body)], true)
    | none => (d, false)

/-- The loop fetch_protocol_docs.py:108-109. -/
def saveFiles (e : Env) (get : Str → Option Tools.Answer) (destination : Str) : List Parsed → Tools.Contents → Tools.Contents × Bool
  | [], d => (d, true)
  | l :: ls, d =>
    match saveFile e get destination d l with
    | (d', true) => saveFiles e get destination ls d'
    | (d', false) => (d', false)

/-- How the tool ends: as in `Model/Downloads.lean`, or with the exception of a link. -/
inductive End
  | fetch (e : Tools.FetchEnd)
  | raised (x : PyErr)
  deriving DecidableEq, Repr

/-- `download_docs`, fetch_protocol_docs.py:88-111, with the addresses as text. -/
def downloadAll (e : Env) (get : Str → Option Tools.Answer) (page : Option (List (Str × List (Str × Option Str)))) (place : Tools.Place)
    (destination : Str) (d : Tools.Contents) : Tools.Contents × End :=
  if place = .file ∨ place = .nothing ∧ destination = [] then (d, .fetch .ioError)
  else
    match urlparse e termsUrl [] with
    | .error x => (d, .raised x)
    | .ok terms =>
      match saveFile e get destination d terms with
      | (d1, false) => (d1, .fetch .requestError)
      | (d1, true) =>
        match page with
        | none => (d1, .fetch .requestError)
        | some tags =>
          match pageLinks e [] tags with
          | .error x => (d1, .raised x)
          | .ok links =>
            match saveFiles e get destination links d1 with
            | (d2, true) => (d2, .fetch .done)
            | (d2, false) => (d2, .fetch .requestError)

end CBus.Url

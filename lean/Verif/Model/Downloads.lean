import Verif.Model.Tools

/-! # What fetch_protocol_docs saves

`/repo/cbus/tools/fetch_protocol_docs.py` with the contents of files and requests that
fail. Not modelled: errors in writing a file or making a directory (other than that of an
empty name), and the printed progress. -/

namespace CBus.Tools
open CBus

/-- The answer to `requests.get(uri)`. -/
structure Answer where
  status : Nat
  body : Bytes
  deriving DecidableEq, Repr

/-- Files and what they contain. -/
abbrev Contents := List (Str × Bytes)

/-- `download_file`, fetch_protocol_docs.py:69-85. The status of the answer is not looked
at. `false` is the exception of a request that fails. -/
def fetchFile (w : Web) (get : Link → Option Answer) (destination : Str) (d : Contents) (link : Link) : Contents × Bool :=
  let fname := fileName w destination link
  if fname ∈ d.map (·.1) then (d, true)
  else
    match get link with
    | some a => (d ++ [(fname, a.body)], true)
    | none => (d, false)

/-- The loop fetch_protocol_docs.py:108-109. -/
def fetchFiles (w : Web) (get : Link → Option Answer) (destination : Str) : List Link → Contents → Contents × Bool
  | [], d => (d, true)
  | l :: ls, d =>
    match fetchFile w get destination d l with
    | (d', true) => fetchFiles w get destination ls d'
    | (d', false) => (d', false)

/-- What there is under the name of the destination. -/
inductive Place
  | nothing | directory | file
  deriving DecidableEq, Repr

/-- How the tool ends. -/
inductive FetchEnd
  | done | ioError | requestError
  deriving DecidableEq, Repr

/-- `download_docs`, fetch_protocol_docs.py:88-111. `page` are the start tags of what the
server answers for the index, whatever its status, or `none` if that request fails.
`os.makedirs('')` raises an `OSError`. This is the first call in a process: the list of links
belongs to the class (line 36), so that a second call would begin with the links of the
first. -/
def fetchDocs (w : Web) (get : Link → Option Answer) (page : Option (List (Str × List (Str × Option Str)))) (place : Place)
    (destination : Str) (terms : Link) (d : Contents) : Contents × FetchEnd :=
  if place = .file ∨ place = .nothing ∧ destination = [] then (d, .ioError)
  else
    match fetchFile w get destination d terms with
    | (d1, false) => (d1, .requestError)
    | (d1, true) =>
      match page with
      | none => (d1, .requestError)
      | some tags =>
        match fetchFiles w get destination (tags.foldl (fun ls t => handleStartTag w ls t.1 t.2) []) d1 with
        | (d2, true) => (d2, .done)
        | (d2, false) => (d2, .requestError)

end CBus.Tools

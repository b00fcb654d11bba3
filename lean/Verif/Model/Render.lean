import Verif.Model.Config
/-!
Model of the drawing of a configuration in the dot format (core/cu29_runtime/src/config.rs:573-633).
The parameters of a task are its keys with the text `Display` gives for their values
(`Model/ShowParam`), in the order in which the map is visited.
-/
namespace Verif
namespace Render
open Config

abbrev Text := List Char

/-- The parameters of a task: keys and displayed values. -/
abbrev Shown := List (String × String)

/-- `html_escape::encode_text` (crate `html_escape`). -/
def encodeText : Text → Text
  | [] => []
  | c :: cs =>
    (if c = '&' then "&amp;".toList
     else if c = '<' then "&lt;".toList
     else if c = '>' then "&gt;".toList
     else [c]) ++ encodeText cs

/-- `join("\n")`. -/
def joinLines : List Text → Text
  | [] => []
  | [l] => l
  | l :: m :: ls => l ++ "\n".toList ++ joinLines (m :: ls)

/-- The parameters in a label (config.rs:578-590). -/
def configText : Option Shown → Text
  | none => []
  | some c =>
    "____________<BR/><BR ALIGN=\"LEFT\"/>".toList ++
      joinLines (c.map fun e =>
        "<B>".toList ++ e.1.toList ++ "</B> = ".toList ++ e.2.toList ++ "<BR ALIGN=\"LEFT\"/>".toList)

/-- `get_dst_edges(i).is_empty()` (config.rs:487-493). -/
def noInput (c : CuConfig Shown) (i : Nat) : Bool := (c.edges.filter (fun e => e.dst == i)).isEmpty

/-- `get_src_edges(i).is_empty()` (config.rs:479-485). -/
def noOutput (c : CuConfig Shown) (i : Nat) : Bool := (c.edges.filter (fun e => e.src == i)).isEmpty

/-- The colour of a task (config.rs:596-604). -/
def colourOf (c : CuConfig Shown) (i : Nat) : Text :=
  if noInput c i then "lightgreen".toList
  else if noOutput c i then "lightblue".toList
  else "lightgrey".toList

/-- One task (config.rs:591-617); `get_type` panics if there is no type (config.rs:234-236). -/
def nodeText (c : CuConfig Shown) (i : Nat) (n : Node Shown) : Rs Text :=
  match n.type_ with
  | none => .panic
  | some t => .ok (Nat.toDigits 10 i ++ " [\nshape=box,\nstyle=\"rounded, filled\",\nfontname=\"Noto Sans\"\n".toList ++
      "fillcolor=".toList ++ colourOf c i ++ ",\ncolor=grey,\nlabeljust=l,\n".toList ++
      "label=< <FONT COLOR=\"red\"><B>".toList ++ n.id.toList ++
      "</B></FONT> <FONT COLOR=\"dimgray\">[".toList ++ t.toList ++
      "]</FONT><BR ALIGN=\"LEFT\"/>".toList ++ configText n.config ++ " >\n];\n".toList)

/-- One connection (config.rs:618-630). -/
def edgeText (e : Edge) : Text :=
  Nat.toDigits 10 e.src ++ " -> ".toList ++ Nat.toDigits 10 e.dst ++
    " [label=< <B><FONT COLOR=\"gray\">".toList ++ encodeText e.cnx.msg.toList ++
    "</FONT></B> >];\n".toList

/-- All the tasks, from the `i`-th on. -/
def nodesText (c : CuConfig Shown) : Nat → List (Node Shown) → Rs Text
  | _, [] => .ok []
  | i, n :: ns =>
    match nodeText c i n with
    | .panic => .panic
    | .ok t =>
      match nodesText c (i + 1) ns with
      | .panic => .panic
      | .ok ts => .ok (t ++ ts)

/-- `render` (config.rs:573-633). -/
def render (c : CuConfig Shown) : Rs Text :=
  match nodesText c 0 c.nodes with
  | .panic => .panic
  | .ok ts => .ok ("digraph G {\n".toList ++ ts ++ (c.edges.map edgeText).flatten ++ "}\n".toList)

end Render
end Verif

import Verif.Model.Basic
/-!
The configuration: core/cu29_runtime/src/config.rs.  The graph only ever grows, so that its node and
edge indices are positions in lists (as in the planner).  The text format itself belongs to the crates
`serde` and `ron`: a text is modelled by the tree of values it denotes, with the rules of the derived
serializers (renamed, skipped, missing, repeated and unknown fields) and the `implicit_some`
extension: `Some(x)` is written as `x`.  `C` stands for `ComponentConfig`, the parameters of a task.
-/
namespace Verif
namespace Config
variable {C : Type}

/-- `Node` (config.rs:208-215). -/
structure Node (C : Type) where
  id : String
  type_ : Option String
  config : Option C
  deriving DecidableEq, Repr

/-- `Cnx` (config.rs:266-284). -/
structure Cnx where
  src : String
  dst : String
  msg : String
  batch : Option UInt32
  store : Option Bool
  deriving DecidableEq, Repr

/-- An edge of the graph with its end points. -/
structure Edge where
  src : Nat
  dst : Nat
  cnx : Cnx
  deriving DecidableEq, Repr

/-- `MonitorConfig` (config.rs:296-302). -/
structure MonitorConfig (C : Type) where
  type_ : String
  config : Option C
  deriving DecidableEq, Repr

/-- `LoggingConfig` (config.rs:320-328). -/
structure LoggingConfig where
  slabSizeMib : Option UInt64
  sectionSizeMib : Option UInt64
  enableTaskLogging : Bool
  deriving DecidableEq, Repr

/-- `CuConfig` (config.rs:288-294). -/
structure CuConfig (C : Type) where
  nodes : List (Node C)
  edges : List Edge
  monitor : Option (MonitorConfig C)
  logging : Option LoggingConfig
  deriving DecidableEq, Repr

/-- `CuConfig::default` (config.rs:405-413). -/
def CuConfig.default : CuConfig C := ⟨[], [], none, none⟩

/-- `add_node` (config.rs:419-421). -/
def CuConfig.addNode (c : CuConfig C) (n : Node C) : CuConfig C := { c with nodes := c.nodes ++ [n] }

/-- `connect_ext` (config.rs:512-539). -/
def CuConfig.connectExt (c : CuConfig C) (s t : Nat) (msg : String) (batch : Option UInt32)
    (store : Option Bool) : Rs (CuConfig C) :=
  match c.nodes[s]?, c.nodes[t]? with
  | some ns, some nt => .ok { c with edges := c.edges ++ [⟨s, t, ⟨ns.id, nt.id, msg, batch, store⟩⟩] }
  | _, _ => .panic

/-- `*get_node_mut(i).unwrap() = n` (config.rs:431-433). -/
def CuConfig.setNode (c : CuConfig C) (i : Nat) (n : Node C) : Rs (CuConfig C) :=
  if i < c.nodes.length then .ok { c with nodes := c.nodes.set i n } else .panic

/-- What a configuration text denotes. -/
inductive Tree (C : Type)
  | str (s : String)
  | num (n : Nat)
  | bool (b : Bool)
  | none
  | comp (c : C)
  | seq (l : List (Tree C))
  | struct (fs : List (String × Tree C))

/-- An `Option` under `implicit_some` (config.rs:548-553). -/
def optTree {α : Type} (f : α → Tree C) : Option α → Tree C
  | .none => .none
  | some a => f a

/-- A field with `skip_serializing_if = "Option::is_none"`. -/
def skipNone {α : Type} (name : String) (f : α → Tree C) : Option α → List (String × Tree C)
  | .none => []
  | some a => [(name, f a)]

/-- `Serialize for Node` (config.rs:208-215). -/
def nodeTree (n : Node C) : Tree C :=
  .struct (("id", .str n.id) :: (skipNone "type" .str n.type_ ++ skipNone "config" .comp n.config))

/-- `Serialize for Cnx` (config.rs:266-284). -/
def cnxTree (c : Cnx) : Tree C :=
  .struct [("src", .str c.src), ("dst", .str c.dst), ("msg", .str c.msg),
    ("batch", optTree (fun n => .num n.toNat) c.batch), ("store", optTree .bool c.store)]

/-- `Serialize for MonitorConfig` (config.rs:296-302). -/
def monitorTree (m : MonitorConfig C) : Tree C :=
  .struct (("type", .str m.type_) :: skipNone "config" .comp m.config)

/-- `Serialize for LoggingConfig` (config.rs:320-328): `enable_task_logging` is skipped when true. -/
def loggingTree (l : LoggingConfig) : Tree C :=
  .struct (skipNone "slab_size_mib" (fun n => .num n.toNat) l.slabSizeMib ++
    (skipNone "section_size_mib" (fun n => .num n.toNat) l.sectionSizeMib ++
      (if l.enableTaskLogging then [] else [("enable_task_logging", .bool false)])))

/-- `Serialize for CuConfig` (config.rs:376-403) and `serialize_ron` (config.rs:555-560). -/
def CuConfig.toTree (c : CuConfig C) : Tree C :=
  .struct [("tasks", .seq (c.nodes.map nodeTree)), ("cnx", .seq (c.edges.map (fun e => cnxTree e.cnx))),
    ("monitor", optTree monitorTree c.monitor), ("logging", optTree loggingTree c.logging)]

/-- The value of a field: `none` is a repeated field (an error), `some none` a missing one.  Unknown
fields are skipped. -/
def field (name : String) (fs : List (String × Tree C)) : Option (Option (Tree C)) :=
  match fs.filter (fun e => e.1 == name) with
  | [] => some .none
  | [e] => some (some e.2)
  | _ => .none

/-- A required field. -/
def required {α : Type} (name : String) (d : Tree C → Option α) (fs : List (String × Tree C)) : Option α :=
  match field name fs with
  | some (some t) => d t
  | _ => .none

/-- A field of type `Option`: missing is `None`. -/
def optional {α : Type} (name : String) (d : Tree C → Option α) (fs : List (String × Tree C)) :
    Option (Option α) :=
  match field name fs with
  | some (some .none) => some .none
  | some (some t) => (d t).map some
  | some .none => some .none
  | .none => .none

def strOf : Tree C → Option String
  | .str s => some s
  | _ => .none
def boolOf : Tree C → Option Bool
  | .bool b => some b
  | _ => .none
def compOf : Tree C → Option C
  | .comp c => some c
  | _ => .none
def u32Of : Tree C → Option UInt32
  | .num n => if n < 4294967296 then some (UInt32.ofNat n) else .none
  | _ => .none
def u64Of : Tree C → Option UInt64
  | .num n => if n < 18446744073709551616 then some (UInt64.ofNat n) else .none
  | _ => .none

/-- All the elements of a sequence. -/
def allOf {α : Type} (d : Tree C → Option α) : List (Tree C) → Option (List α)
  | [] => some []
  | t :: ts => do
    let a ← d t
    let as ← allOf d ts
    pure (a :: as)

def seqOf {α : Type} (d : Tree C → Option α) : Tree C → Option (List α)
  | .seq l => allOf d l
  | _ => .none

def structOf {α : Type} (d : List (String × Tree C) → Option α) : Tree C → Option α
  | .struct fs => d fs
  | _ => .none

/-- `Deserialize for Node` (config.rs:208-215). -/
def nodeOf : Tree C → Option (Node C) := structOf fun fs => do
  let id ← required "id" strOf fs
  let t ← optional "type" strOf fs
  let c ← optional "config" compOf fs
  pure ⟨id, t, c⟩

/-- `Deserialize for Cnx` (config.rs:266-284). -/
def cnxOf : Tree C → Option Cnx := structOf fun fs => do
  let src ← required "src" strOf fs
  let dst ← required "dst" strOf fs
  let msg ← required "msg" strOf fs
  let batch ← optional "batch" u32Of fs
  let store ← optional "store" boolOf fs
  pure ⟨src, dst, msg, batch, store⟩

/-- `Deserialize for MonitorConfig` (config.rs:296-302). -/
def monitorOf : Tree C → Option (MonitorConfig C) := structOf fun fs => do
  let t ← required "type" strOf fs
  let c ← optional "config" compOf fs
  pure ⟨t, c⟩

/-- `Deserialize for LoggingConfig` (config.rs:320-328): `enable_task_logging` is true when missing. -/
def loggingOf : Tree C → Option LoggingConfig := structOf fun fs => do
  let slab ← optional "slab_size_mib" u64Of fs
  let sec ← optional "section_size_mib" u64Of fs
  let en ← match field "enable_task_logging" fs with
    | some (some t) => boolOf t
    | some .none => some true
    | .none => .none
  pure ⟨slab, sec, en⟩

/-- `CuConfigRepresentation` (config.rs:331-337). -/
structure Rep (C : Type) where
  tasks : List (Node C)
  cnx : List Cnx
  monitor : Option (MonitorConfig C)
  logging : Option LoggingConfig

def repOf : Tree C → Option (Rep C) := structOf fun fs => do
  let tasks ← required "tasks" (seqOf nodeOf) fs
  let cnx ← required "cnx" (seqOf cnxOf) fs
  let monitor ← optional "monitor" monitorOf fs
  let logging ← optional "logging" loggingOf fs
  pure ⟨tasks, cnx, monitor, logging⟩

/-- `node_indices().find(|i| graph[*i].id == id)` (config.rs:352-356): the first one. -/
def findNode (nodes : List (Node C)) (id : String) : Option Nat := nodes.findIdx? (fun n => n.id == id)

/-- The loop over the connections (config.rs:351-369); `expect` panics. -/
def connectAll (c : CuConfig C) : List Cnx → Rs (CuConfig C)
  | [] => .ok c
  | x :: xs =>
    match findNode c.nodes x.src, findNode c.nodes x.dst with
    | some s, some t =>
      match c.connectExt s t x.msg x.batch x.store with
      | .panic => .panic
      | .ok c => connectAll c xs
    | _, _ => .panic

/-- `Deserialize for CuConfig` (config.rs:339-374). -/
def ofRep (r : Rep C) : Rs (CuConfig C) :=
  match connectAll (r.tasks.foldl CuConfig.addNode CuConfig.default) r.cnx with
  | .panic => .panic
  | .ok c => .ok { c with monitor := r.monitor, logging := r.logging }

/-- `deserialize_ron` (config.rs:562-570): any error is a panic. -/
def deserializeRon (t : Tree C) : Rs (CuConfig C) :=
  match repOf t with
  | .none => .panic
  | some r => ofRep r

/-- `LoggingConfig::validate` (config.rs:660-672): true is `Ok`. -/
def LoggingConfig.validate (l : LoggingConfig) : Bool :=
  match l.sectionSizeMib with
  | some sec =>
    match l.slabSizeMib with
    | some slab => if sec > slab then false else true
    | .none => true
  | .none => true

/-- `validate_logging_config` (config.rs:650-655). -/
def CuConfig.validateLogging (c : CuConfig C) : Bool :=
  match c.logging with
  | some l => l.validate
  | .none => true

/-- `read_configuration_str` (config.rs:688-693): `none` is the error of the validation. -/
def readConfigurationStr (t : Tree C) : Rs (Option (CuConfig C)) :=
  match deserializeRon t with
  | .panic => .panic
  | .ok c => .ok (if c.validateLogging then some c else .none)

/-- The configuration a generated application starts with (core/cu29_derive/src/lib.rs:1033-1044): the
one given by the program, else the file if it exists (`some`), else the text it was compiled with. -/
def startConfig (override : Option (CuConfig C)) (file : Option (Tree C)) (original : Tree C) :
    Rs (Option (CuConfig C)) :=
  match override with
  | some c => .ok (some c)
  | .none =>
    match file with
    | some t => readConfigurationStr t
    | .none => readConfigurationStr original

end Config
end Verif

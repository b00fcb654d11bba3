import Verif.Model.PointCloud
/-! What users see of a point cloud: its points. -/
namespace Verif
namespace PointCloud
open Bincode

/-- Time of validity, coordinates and intensity of each slot. -/
abbrev Row := UInt64 × F32 × F32 × F32 × F32

/-- A point: the row and its return order. -/
abbrev Point := Row × UInt8

/-- The arrays have `n` elements (their type). -/
structure Cloud.Sized (n : Nat) (c : Cloud) : Prop where
  tov : c.tov.length = n
  x : c.x.length = n
  y : c.y.length = n
  z : c.z.length = n
  i : c.i.length = n
  returnOrder : c.returnOrder.length = n

/-- All the slots. -/
def Cloud.rows (c : Cloud) : List Row := c.tov.zip (c.x.zip (c.y.zip (c.z.zip c.i)))

/-- The points of the cloud: the first `len` slots. -/
def Cloud.points (c : Cloud) : List Point := (c.rows.zip c.returnOrder).take c.len

end PointCloud
end Verif

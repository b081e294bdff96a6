import Verif.Model.UVP

/-!
Model of what `UVPSpec.select` (uvpspec.py L1637-1722) leaves behind when it raises: `_select` (uvpspec_utils.py
L533-960) assigns the attributes of the object one axis after the other.
-/
namespace HeraPspec.UVP

variable {D W : Type}

/-- `_select` on an object with its data in memory, as a sequence of assignments (uvpspec_utils.py L587-905): the object
as it stands when the call ends, and the exception if there was one. The attributes of the window axis are assigned
(L592-620) before the row request is looked at (L622-668), those of the row axis (L682-702) before the polarization
request (L704-741), the polarization attributes (L742-746) before the data arrays are read, and the data arrays last
(L908-911). The window step looks up its three index arrays before it assigns anything; the search for the next label
inside the relabelling loop (L616) cannot fail on an object whose window lists agree, so an error of `selectSpws` is
taken to leave the object as it was. `bl_array`, `scalar_array`, the `r_params` and the beam arrays are not modelled. -/
def selectState (u : UVP D W) (a : Args) : UVP D W × Option Err :=
  match selectSpws u a.spws with
  | .error e => (u, some e)
  | .ok (u1, mapping) =>
    match rowSel u1 a with
    | .error e => (u1, some e)
    | .ok rs =>
      let u2 := { u1 with
        blpairArray := rs.apply u1.blpairArray
        time1 := rs.apply u1.time1
        time2 := rs.apply u1.time2
        timeAvg := rs.apply u1.timeAvg
        lst1 := rs.apply u1.lst1
        lst2 := rs.apply u1.lst2
        lstAvg := rs.apply u1.lstAvg }
      match polSel u2 a.polpairs with
      | .error e => (u2, some e)
      | .ok ps =>
        let u3 := { u2 with polpairArray := ps.apply u2.polpairArray }
        match sliceDict (fun rows => (rs.apply rows).map (fun r => r.map ps.apply)) u3.data (u3.spwArray.zip mapping) with
        | .error e => (u3, some e)
        | .ok data =>
          match sliceDict (fun rows => (rs.apply rows).map ps.apply) u3.integ (u3.spwArray.zip mapping) with
          | .error e => (u3, some e)
          | .ok integ => ({ u3 with data := data, integ := integ }, none)

/-- `UVPSpec.select(..., inplace=..., run_check=False)`, uvpspec.py L1699-1722: the object the method was called on, as it
is afterwards, and what the call returned (`none` in place) or raised. The deep copy of L1702 is a separate value. The
`check` of L1717-1718 is not modelled here. -/
def selectCall (inplace : Bool) (u : UVP D W) (a : Args) : UVP D W × Except Err (Option (UVP D W)) :=
  let r := selectState u a
  if inplace then (r.1, match r.2 with | some e => .error e | none => .ok none)
  else (u, match r.2 with | some e => .error e | none => .ok (some r.1))

end HeraPspec.UVP

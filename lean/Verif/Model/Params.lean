import Verif.Model.ArgParse

/-!
The parameter lists of `UVPSpec.__init__` (uvpspec.py L58-560): names of attributes as lists of characters.
-/
namespace HeraPspec.Params
open HeraPspec.ArgParse (Str)

/-- The attribute name `Nblpairs` (uvpspec.py L58-560). -/
def n_Nblpairs : Str := ['N', 'b', 'l', 'p', 'a', 'i', 'r', 's']
/-- The attribute name `Nblpairts` (uvpspec.py L58-560). -/
def n_Nblpairts : Str := ['N', 'b', 'l', 'p', 'a', 'i', 'r', 't', 's']
/-- The attribute name `Nbls` (uvpspec.py L58-560). -/
def n_Nbls : Str := ['N', 'b', 'l', 's']
/-- The attribute name `Nbltpairs` (uvpspec.py L58-560). -/
def n_Nbltpairs : Str := ['N', 'b', 'l', 't', 'p', 'a', 'i', 'r', 's']
/-- The attribute name `Ndlys` (uvpspec.py L58-560). -/
def n_Ndlys : Str := ['N', 'd', 'l', 'y', 's']
/-- The attribute name `Nfreqs` (uvpspec.py L58-560). -/
def n_Nfreqs : Str := ['N', 'f', 'r', 'e', 'q', 's']
/-- The attribute name `Npols` (uvpspec.py L58-560). -/
def n_Npols : Str := ['N', 'p', 'o', 'l', 's']
/-- The attribute name `Nspwdlys` (uvpspec.py L58-560). -/
def n_Nspwdlys : Str := ['N', 's', 'p', 'w', 'd', 'l', 'y', 's']
/-- The attribute name `Nspwfreqs` (uvpspec.py L58-560). -/
def n_Nspwfreqs : Str := ['N', 's', 'p', 'w', 'f', 'r', 'e', 'q', 's']
/-- The attribute name `Nspws` (uvpspec.py L58-560). -/
def n_Nspws : Str := ['N', 's', 'p', 'w', 's']
/-- The attribute name `Ntimes` (uvpspec.py L58-560). -/
def n_Ntimes : Str := ['N', 't', 'i', 'm', 'e', 's']
/-- The attribute name `Ntpairs` (uvpspec.py L58-560). -/
def n_Ntpairs : Str := ['N', 't', 'p', 'a', 'i', 'r', 's']
/-- The attribute name `OmegaP` (uvpspec.py L58-560). -/
def n_OmegaP : Str := ['O', 'm', 'e', 'g', 'a', 'P']
/-- The attribute name `OmegaPP` (uvpspec.py L58-560). -/
def n_OmegaPP : Str := ['O', 'm', 'e', 'g', 'a', 'P', 'P']
/-- The attribute name `beam_freqs` (uvpspec.py L58-560). -/
def n_beam_freqs : Str := ['b', 'e', 'a', 'm', '_', 'f', 'r', 'e', 'q', 's']
/-- The attribute name `beamfile` (uvpspec.py L58-560). -/
def n_beamfile : Str := ['b', 'e', 'a', 'm', 'f', 'i', 'l', 'e']
/-- The attribute name `bl_array` (uvpspec.py L58-560). -/
def n_bl_array : Str := ['b', 'l', '_', 'a', 'r', 'r', 'a', 'y']
/-- The attribute name `bl_vecs` (uvpspec.py L58-560). -/
def n_bl_vecs : Str := ['b', 'l', '_', 'v', 'e', 'c', 's']
/-- The attribute name `blpair_array` (uvpspec.py L58-560). -/
def n_blpair_array : Str := ['b', 'l', 'p', 'a', 'i', 'r', '_', 'a', 'r', 'r', 'a', 'y']
/-- The attribute name `channel_width` (uvpspec.py L58-560). -/
def n_channel_width : Str := ['c', 'h', 'a', 'n', 'n', 'e', 'l', '_', 'w', 'i', 'd', 't', 'h']
/-- The attribute name `cosmo` (uvpspec.py L58-560). -/
def n_cosmo : Str := ['c', 'o', 's', 'm', 'o']
/-- The attribute name `cov_array_imag` (uvpspec.py L58-560). -/
def n_cov_array_imag : Str := ['c', 'o', 'v', '_', 'a', 'r', 'r', 'a', 'y', '_', 'i', 'm', 'a', 'g']
/-- The attribute name `cov_array_real` (uvpspec.py L58-560). -/
def n_cov_array_real : Str := ['c', 'o', 'v', '_', 'a', 'r', 'r', 'a', 'y', '_', 'r', 'e', 'a', 'l']
/-- The attribute name `cov_model` (uvpspec.py L58-560). -/
def n_cov_model : Str := ['c', 'o', 'v', '_', 'm', 'o', 'd', 'e', 'l']
/-- The attribute name `data_array` (uvpspec.py L58-560). -/
def n_data_array : Str := ['d', 'a', 't', 'a', '_', 'a', 'r', 'r', 'a', 'y']
/-- The attribute name `dly_array` (uvpspec.py L58-560). -/
def n_dly_array : Str := ['d', 'l', 'y', '_', 'a', 'r', 'r', 'a', 'y']
/-- The attribute name `exact_windows` (uvpspec.py L58-560). -/
def n_exact_windows : Str := ['e', 'x', 'a', 'c', 't', '_', 'w', 'i', 'n', 'd', 'o', 'w', 's']
/-- The attribute name `folded` (uvpspec.py L58-560). -/
def n_folded : Str := ['f', 'o', 'l', 'd', 'e', 'd']
/-- The attribute name `freq_array` (uvpspec.py L58-560). -/
def n_freq_array : Str := ['f', 'r', 'e', 'q', '_', 'a', 'r', 'r', 'a', 'y']
/-- The attribute name `history` (uvpspec.py L58-560). -/
def n_history : Str := ['h', 'i', 's', 't', 'o', 'r', 'y']
/-- The attribute name `integration_array` (uvpspec.py L58-560). -/
def n_integration_array : Str := ['i', 'n', 't', 'e', 'g', 'r', 'a', 't', 'i', 'o', 'n', '_', 'a', 'r', 'r', 'a', 'y']
/-- The attribute name `label_1_array` (uvpspec.py L58-560). -/
def n_label_1_array : Str := ['l', 'a', 'b', 'e', 'l', '_', '1', '_', 'a', 'r', 'r', 'a', 'y']
/-- The attribute name `label_2_array` (uvpspec.py L58-560). -/
def n_label_2_array : Str := ['l', 'a', 'b', 'e', 'l', '_', '2', '_', 'a', 'r', 'r', 'a', 'y']
/-- The attribute name `labels` (uvpspec.py L58-560). -/
def n_labels : Str := ['l', 'a', 'b', 'e', 'l', 's']
/-- The attribute name `lst_1_array` (uvpspec.py L58-560). -/
def n_lst_1_array : Str := ['l', 's', 't', '_', '1', '_', 'a', 'r', 'r', 'a', 'y']
/-- The attribute name `lst_2_array` (uvpspec.py L58-560). -/
def n_lst_2_array : Str := ['l', 's', 't', '_', '2', '_', 'a', 'r', 'r', 'a', 'y']
/-- The attribute name `lst_avg_array` (uvpspec.py L58-560). -/
def n_lst_avg_array : Str := ['l', 's', 't', '_', 'a', 'v', 'g', '_', 'a', 'r', 'r', 'a', 'y']
/-- The attribute name `norm` (uvpspec.py L58-560). -/
def n_norm : Str := ['n', 'o', 'r', 'm']
/-- The attribute name `norm_units` (uvpspec.py L58-560). -/
def n_norm_units : Str := ['n', 'o', 'r', 'm', '_', 'u', 'n', 'i', 't', 's']
/-- The attribute name `nsample_array` (uvpspec.py L58-560). -/
def n_nsample_array : Str := ['n', 's', 'a', 'm', 'p', 'l', 'e', '_', 'a', 'r', 'r', 'a', 'y']
/-- The attribute name `pol_array` (uvpspec.py L58-560). -/
def n_pol_array : Str := ['p', 'o', 'l', '_', 'a', 'r', 'r', 'a', 'y']
/-- The attribute name `polpair_array` (uvpspec.py L58-560). -/
def n_polpair_array : Str := ['p', 'o', 'l', 'p', 'a', 'i', 'r', '_', 'a', 'r', 'r', 'a', 'y']
/-- The attribute name `pspec_type` (uvpspec.py L58-560). -/
def n_pspec_type : Str := ['p', 's', 'p', 'e', 'c', '_', 't', 'y', 'p', 'e']
/-- The attribute name `r_params` (uvpspec.py L58-560). -/
def n_r_params : Str := ['r', '_', 'p', 'a', 'r', 'a', 'm', 's']
/-- The attribute name `scalar_array` (uvpspec.py L58-560). -/
def n_scalar_array : Str := ['s', 'c', 'a', 'l', 'a', 'r', '_', 'a', 'r', 'r', 'a', 'y']
/-- The attribute name `spw_array` (uvpspec.py L58-560). -/
def n_spw_array : Str := ['s', 'p', 'w', '_', 'a', 'r', 'r', 'a', 'y']
/-- The attribute name `spw_dly_array` (uvpspec.py L58-560). -/
def n_spw_dly_array : Str := ['s', 'p', 'w', '_', 'd', 'l', 'y', '_', 'a', 'r', 'r', 'a', 'y']
/-- The attribute name `spw_freq_array` (uvpspec.py L58-560). -/
def n_spw_freq_array : Str := ['s', 'p', 'w', '_', 'f', 'r', 'e', 'q', '_', 'a', 'r', 'r', 'a', 'y']
/-- The attribute name `stats_array` (uvpspec.py L58-560). -/
def n_stats_array : Str := ['s', 't', 'a', 't', 's', '_', 'a', 'r', 'r', 'a', 'y']
/-- The attribute name `symmetric_taper` (uvpspec.py L58-560). -/
def n_symmetric_taper : Str := ['s', 'y', 'm', 'm', 'e', 't', 'r', 'i', 'c', '_', 't', 'a', 'p', 'e', 'r']
/-- The attribute name `taper` (uvpspec.py L58-560). -/
def n_taper : Str := ['t', 'a', 'p', 'e', 'r']
/-- The attribute name `telescope_location` (uvpspec.py L58-560). -/
def n_telescope_location : Str := ['t', 'e', 'l', 'e', 's', 'c', 'o', 'p', 'e', '_', 'l', 'o', 'c', 'a', 't', 'i', 'o', 'n']
/-- The attribute name `time_1_array` (uvpspec.py L58-560). -/
def n_time_1_array : Str := ['t', 'i', 'm', 'e', '_', '1', '_', 'a', 'r', 'r', 'a', 'y']
/-- The attribute name `time_2_array` (uvpspec.py L58-560). -/
def n_time_2_array : Str := ['t', 'i', 'm', 'e', '_', '2', '_', 'a', 'r', 'r', 'a', 'y']
/-- The attribute name `time_avg_array` (uvpspec.py L58-560). -/
def n_time_avg_array : Str := ['t', 'i', 'm', 'e', '_', 'a', 'v', 'g', '_', 'a', 'r', 'r', 'a', 'y']
/-- The attribute name `vis_units` (uvpspec.py L58-560). -/
def n_vis_units : Str := ['v', 'i', 's', '_', 'u', 'n', 'i', 't', 's']
/-- The attribute name `weighting` (uvpspec.py L58-560). -/
def n_weighting : Str := ['w', 'e', 'i', 'g', 'h', 't', 'i', 'n', 'g']
/-- The attribute name `wgt_array` (uvpspec.py L58-560). -/
def n_wgt_array : Str := ['w', 'g', 't', '_', 'a', 'r', 'r', 'a', 'y']
/-- The attribute name `window_function_array` (uvpspec.py L58-560). -/
def n_window_function_array : Str := ['w', 'i', 'n', 'd', 'o', 'w', '_', 'f', 'u', 'n', 'c', 't', 'i', 'o', 'n', '_', 'a', 'r', 'r', 'a', 'y']
/-- The attribute name `window_function_kpara` (uvpspec.py L58-560). -/
def n_window_function_kpara : Str := ['w', 'i', 'n', 'd', 'o', 'w', '_', 'f', 'u', 'n', 'c', 't', 'i', 'o', 'n', '_', 'k', 'p', 'a', 'r', 'a']
/-- The attribute name `window_function_kperp` (uvpspec.py L58-560). -/
def n_window_function_kperp : Str := ['w', 'i', 'n', 'd', 'o', 'w', '_', 'f', 'u', 'n', 'c', 't', 'i', 'o', 'n', '_', 'k', 'p', 'e', 'r', 'p']

/-- `self._all_params`, uvpspec.py L398-400: the attributes of `self` beginning with an underscore at that point, i.e. the names
`X` for which the constructor assigned `self._X` (L71-396). The second assignment to `self._time_1_array` (L264) was meant to be
`_time_2_array`, and `self.set_symmetric_taper = PSpecParam(...)` (L323) was meant to be `_symmetric_taper`, so neither
`time_2_array` nor `symmetric_taper` is in the list. -/
def allParams : List Str := [
  n_Nblpairs, n_Nbls, n_Nbltpairs, n_Ndlys, n_Nfreqs,
  n_Npols, n_Nspwdlys, n_Nspwfreqs, n_Nspws, n_Ntimes,
  n_Ntpairs, n_OmegaP, n_OmegaPP, n_beam_freqs, n_beamfile,
  n_bl_array, n_bl_vecs, n_blpair_array, n_channel_width, n_cosmo,
  n_cov_array_imag, n_cov_array_real, n_cov_model, n_data_array, n_dly_array,
  n_exact_windows, n_folded, n_freq_array, n_history, n_integration_array,
  n_label_1_array, n_label_2_array, n_labels, n_lst_1_array, n_lst_2_array,
  n_lst_avg_array, n_norm, n_norm_units, n_nsample_array, n_polpair_array,
  n_r_params, n_scalar_array, n_spw_array, n_spw_dly_array, n_spw_freq_array,
  n_stats_array, n_taper, n_telescope_location, n_time_1_array, n_time_avg_array,
  n_vis_units, n_weighting, n_wgt_array, n_window_function_array, n_window_function_kpara,
  n_window_function_kperp]

/-- `self._req_params`, uvpspec.py L404-450. -/
def reqParams : List Str := [
  n_Ntimes, n_Ntpairs, n_Nbltpairs, n_Nblpairs, n_Nspws,
  n_Ndlys, n_Npols, n_Nfreqs, n_history, n_Nspwdlys,
  n_Nspwfreqs, n_r_params, n_data_array, n_wgt_array, n_integration_array,
  n_spw_array, n_freq_array, n_dly_array, n_polpair_array, n_lst_1_array,
  n_lst_2_array, n_time_1_array, n_time_2_array, n_blpair_array, n_Nbls,
  n_bl_vecs, n_bl_array, n_channel_width, n_telescope_location, n_weighting,
  n_vis_units, n_norm_units, n_taper, n_norm, n_nsample_array,
  n_lst_avg_array, n_time_avg_array, n_folded, n_scalar_array, n_labels,
  n_label_1_array, n_label_2_array, n_spw_dly_array, n_spw_freq_array, n_symmetric_taper]

/-- `self._immutables`, uvpspec.py L454-478. -/
def immutables : List Str := [
  n_Ntimes, n_Ntpairs, n_Nbltpairs, n_Nblpairs, n_Nspwdlys,
  n_Nspwfreqs, n_Nspws, n_Ndlys, n_Npols, n_Nfreqs,
  n_history, n_r_params, n_cov_model, n_Nbls, n_weighting,
  n_vis_units, n_norm, n_norm_units, n_taper, n_cosmo,
  n_beamfile, n_folded, n_exact_windows]

/-- `self._ndarrays`, uvpspec.py L479-504. -/
def ndarrays : List Str := [
  n_spw_array, n_freq_array, n_dly_array, n_polpair_array, n_lst_1_array,
  n_lst_avg_array, n_time_avg_array, n_channel_width, n_lst_2_array, n_time_1_array,
  n_time_2_array, n_blpair_array, n_OmegaP, n_OmegaPP, n_beam_freqs,
  n_bl_vecs, n_bl_array, n_telescope_location, n_scalar_array, n_labels,
  n_label_1_array, n_label_2_array, n_spw_freq_array, n_spw_dly_array]

/-- `self._dicts`, uvpspec.py L505-515. -/
def dicts : List Str := [
  n_data_array, n_wgt_array, n_integration_array, n_window_function_array, n_window_function_kperp,
  n_window_function_kpara, n_nsample_array, n_cov_array_real, n_cov_array_imag]

/-- `self._dicts_of_dicts`, uvpspec.py L516-516. -/
def dictsOfDicts : List Str := [
  n_stats_array]

/-- `self._meta_dsets`, uvpspec.py L520-536. -/
def metaDsets : List Str := [
  n_lst_1_array, n_lst_2_array, n_time_1_array, n_time_2_array, n_blpair_array,
  n_bl_vecs, n_bl_array, n_lst_avg_array, n_time_avg_array, n_OmegaP,
  n_OmegaPP, n_label_1_array, n_label_2_array, n_spw_dly_array, n_spw_freq_array]

/-- `self._meta_deprecated`, uvpspec.py L549-549. -/
def metaDeprecated : List Str := [
  n_Nblpairts]

/-- `self._meta_attrs`, uvpspec.py L537-542. -/
def metaAttrs : List Str :=
  allParams.filter (fun p => !(dicts.contains p) && !(metaDsets.contains p) && !(dictsOfDicts.contains p))

end HeraPspec.Params

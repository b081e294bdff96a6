import Verif.Props.Hdf5

/-!
Specification for C158: when an object read from a container is the one that was stored.
-/
namespace HeraPspec.ContainerIO
open HeraPspec.Hdf5 HeraPspec.Params

variable {V : Type}

/-- `r` is what was stored as `u`: all metadata (except `r_params`, which the reader normalises) and all arrays, window functions, covariances and
statistics of every spectral window; `r` has no other spectral windows. -/
structure Same (c : Codec V) (u r : Obj V) : Prop where
  attrs : ∀ k ∈ metaAttrs, k ≠ n_r_params → Dict.get r.attrs k = Dict.get u.attrs k
  dsets : ∀ k ∈ metaDsets, Dict.get r.attrs k = Dict.get u.attrs k
  arrays : ∀ s ∈ spwsOf c u, ∀ a ∈ [n_data_array, n_wgt_array, n_integration_array, n_nsample_array, n_window_function_array, n_cov_array_real],
    arrayAt r a s = arrayAt u a s
  needed : ∀ s ∈ spwsOf c u, ∀ a ∈ [n_data_array, n_wgt_array, n_integration_array, n_nsample_array], (arrayAt r a s).isSome
  imag : Dict.has u.dicts n_cov_array_real = true → ∀ s ∈ spwsOf c u, arrayAt r n_cov_array_imag s = arrayAt u n_cov_array_imag s
  exact : (Dict.get u.attrs n_exact_windows).map c.truthy = some true → ∀ s ∈ spwsOf c u,
    arrayAt r n_window_function_kperp s = arrayAt u n_window_function_kperp s ∧ arrayAt r n_window_function_kpara s = arrayAt u n_window_function_kpara s
  stats : ∀ s ∈ spwsOf c u, ∀ n, statAt r n s = statAt u n s
  other : ∀ s, s ∉ spwsOf c u → (∀ a, arrayAt r a s = none) ∧ ∀ n, statAt r n s = none

end HeraPspec.ContainerIO

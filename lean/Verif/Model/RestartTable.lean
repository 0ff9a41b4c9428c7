import Verif.Model.Restart
/-
The table of restart variables, `ndsl/restart/_properties.py` 15-452, entry by entry. The key
`fortran_subname` of some entries, which the loader does not read, is left out.
-/
namespace NDSL.Restart

/-- `RESTART_PROPERTIES`, 15-452. -/
def restartTable : List (String × Props) := [
  ("accumulated_x_courant_number", ⟨[.k, .j, .i], "cx", ""⟩),
  ("accumulated_x_mass_flux", ⟨[.k, .j, .iInterface], "mfx", "unknown"⟩),
  ("accumulated_y_courant_number", ⟨[.k, .j, .i], "cy", "unknown"⟩),
  ("accumulated_y_mass_flux", ⟨[.k, .jInterface, .i], "mfy", "unknown"⟩),
  ("air_temperature", ⟨[.k, .j, .i], "T", "degK"⟩),
  ("air_temperature_after_physics", ⟨[.k, .j, .i], "gt0", "K"⟩),
  ("air_temperature_at_2m", ⟨[.j, .i], "t2m", "degK"⟩),
  ("area_of_grid_cell", ⟨[.j, .i], "area", "m^2"⟩),
  ("atmosphere_hybrid_a_coordinate", ⟨[.kInterface], "ak", "Pa"⟩),
  ("atmosphere_hybrid_b_coordinate", ⟨[.kInterface], "bk", ""⟩),
  ("canopy_water", ⟨[.j, .i], "canopy", "unknown"⟩),
  ("clear_sky_downward_longwave_flux_at_surface", ⟨[.j, .i], "sfcflw", "W/m^2"⟩),
  ("clear_sky_downward_shortwave_flux_at_surface", ⟨[.j, .i], "sfcfsw", "W/m^2"⟩),
  ("clear_sky_upward_longwave_flux_at_surface", ⟨[.j, .i], "sfcflw", "W/m^2"⟩),
  ("clear_sky_upward_longwave_flux_at_top_of_atmosphere", ⟨[.j, .i], "topflw", "W/m^2"⟩),
  ("clear_sky_upward_shortwave_flux_at_surface", ⟨[.j, .i], "sfcfsw", "W/m^2"⟩),
  ("clear_sky_upward_shortwave_flux_at_top_of_atmosphere", ⟨[.j, .i], "topfsw", "W/m^2"⟩),
  ("convective_cloud_bottom_pressure", ⟨[.j, .i], "cvb", "Pa"⟩),
  ("convective_cloud_fraction", ⟨[.j, .i], "cv", ""⟩),
  ("convective_cloud_top_pressure", ⟨[.j, .i], "cvt", "Pa"⟩),
  ("deep_soil_temperature", ⟨[.j, .i], "tg3", "degK"⟩),
  ("dissipation_estimate_from_heat_source", ⟨[.k, .j, .i], "diss_est", "unknown"⟩),
  ("eastward_wind", ⟨[.k, .j, .i], "ua", "m/s"⟩),
  ("eastward_wind_after_physics", ⟨[.k, .j, .i], "gu0", "m/s"⟩),
  ("eastward_wind_at_surface", ⟨[.j, .i], "u_srf", "m/s"⟩),
  ("fh_parameter", ⟨[.j, .i], "ffhh", "unknown"⟩),
  ("fm_at_10m", ⟨[.j, .i], "f10m", "unknown"⟩),
  ("fm_parameter", ⟨[.j, .i], "ffmm", "unknown"⟩),
  ("fractional_coverage_with_strong_cosz_dependency", ⟨[.j, .i], "facsf", ""⟩),
  ("fractional_coverage_with_weak_cosz_dependency", ⟨[.j, .i], "facwf", ""⟩),
  ("friction_velocity", ⟨[.j, .i], "uustar", "m/s"⟩),
  ("ice_fraction_over_open_water", ⟨[.j, .i], "fice", ""⟩),
  ("interface_pressure", ⟨[.j, .kInterface, .i], "pe", "Pa"⟩),
  ("interface_pressure_raised_to_power_of_kappa", ⟨[.kInterface, .j, .i], "pk", "unknown"⟩),
  ("land_sea_mask", ⟨[.j, .i], "slmsk", ""⟩),
  ("latent_heat_flux", ⟨[.j, .i], "dqsfci", "W/m^2"⟩),
  ("latitude", ⟨[.j, .i], "xlat", "radians"⟩),
  ("layer_mean_pressure_raised_to_power_of_kappa", ⟨[.k, .j, .i], "pkz", "unknown"⟩),
  ("liquid_soil_moisture", ⟨[.kSoil, .j, .i], "slc", "unknown"⟩),
  ("logarithm_of_interface_pressure", ⟨[.j, .kInterface, .i], "peln", "ln(Pa)"⟩),
  ("longitude", ⟨[.j, .i], "xlon", "radians"⟩),
  ("maximum_fractional_coverage_of_green_vegetation", ⟨[.j, .i], "shdmax", ""⟩),
  ("maximum_snow_albedo_in_fraction", ⟨[.j, .i], "snoalb", ""⟩),
  ("mean_cos_zenith_angle", ⟨[.j, .i], "coszen", ""⟩),
  ("mean_near_infrared_albedo_with_strong_cosz_dependency", ⟨[.j, .i], "alnsf", ""⟩),
  ("mean_near_infrared_albedo_with_weak_cosz_dependency", ⟨[.j, .i], "alnwf", ""⟩),
  ("mean_visible_albedo_with_strong_cosz_dependency", ⟨[.j, .i], "alvsf", ""⟩),
  ("mean_visible_albedo_with_weak_cosz_dependency", ⟨[.j, .i], "alvwf", ""⟩),
  ("minimum_fractional_coverage_of_green_vegetation", ⟨[.j, .i], "shdmin", ""⟩),
  ("northward_wind", ⟨[.k, .j, .i], "va", "m/s"⟩),
  ("northward_wind_after_physics", ⟨[.k, .j, .i], "gv0", "m/s"⟩),
  ("northward_wind_at_surface", ⟨[.j, .i], "v_srf", "m/s"⟩),
  ("pressure_thickness_of_atmospheric_layer", ⟨[.k, .j, .i], "delp", "Pa"⟩),
  ("sea_ice_thickness", ⟨[.j, .i], "hice", "unknown"⟩),
  ("sensible_heat_flux", ⟨[.j, .i], "dtsfci", "W/m^2"⟩),
  ("snow_cover_in_fraction", ⟨[.j, .i], "sncovr", ""⟩),
  ("snow_depth_water_equivalent", ⟨[.j, .i], "snwdph", "mm"⟩),
  ("snow_rain_flag", ⟨[.j, .i], "srflag", ""⟩),
  ("soil_temperature", ⟨[.kSoil, .j, .i], "stc", "degK"⟩),
  ("soil_type", ⟨[.j, .i], "stype", ""⟩),
  ("specific_humidity_at_2m", ⟨[.j, .i], "q2m", "kg/kg"⟩),
  ("surface_geopotential", ⟨[.j, .i], "phis", "m^2 s^-2"⟩),
  ("surface_pressure", ⟨[.j, .i], "ps", "Pa"⟩),
  ("surface_roughness", ⟨[.j, .i], "zorl", "cm"⟩),
  ("surface_slope_type", ⟨[.j, .i], "slope", ""⟩),
  ("surface_temperature", ⟨[.j, .i], "tsea", "degK"⟩),
  ("surface_temperature_over_ice_fraction", ⟨[.j, .i], "tisfc", "degK"⟩),
  ("total_condensate_mixing_ratio", ⟨[.k, .j, .i], "q_con", "kg/kg"⟩),
  ("total_precipitation", ⟨[.j, .i], "tprcp", "m"⟩),
  ("total_sky_downward_longwave_flux_at_surface", ⟨[.j, .i], "sfcflw", "W/m^2"⟩),
  ("total_sky_downward_shortwave_flux_at_surface", ⟨[.j, .i], "sfcfsw", "W/m^2"⟩),
  ("total_sky_downward_shortwave_flux_at_top_of_atmosphere", ⟨[.j, .i], "topfsw", "W/m^2"⟩),
  ("total_sky_upward_longwave_flux_at_surface", ⟨[.j, .i], "sfcflw", "W/m^2"⟩),
  ("total_sky_upward_longwave_flux_at_top_of_atmosphere", ⟨[.j, .i], "topflw", "W/m^2"⟩),
  ("total_sky_upward_shortwave_flux_at_surface", ⟨[.j, .i], "sfcfsw", "W/m^2"⟩),
  ("total_sky_upward_shortwave_flux_at_top_of_atmosphere", ⟨[.j, .i], "topfsw", "W/m^2"⟩),
  ("total_soil_moisture", ⟨[.kSoil, .j, .i], "smc", "unknown"⟩),
  ("vegetation_fraction", ⟨[.j, .i], "vfrac", ""⟩),
  ("vegetation_type", ⟨[.j, .i], "vtype", ""⟩),
  ("vertical_pressure_velocity", ⟨[.k, .j, .i], "omga", "Pa/s"⟩),
  ("vertical_thickness_of_atmospheric_layer", ⟨[.k, .j, .i], "DZ", "m"⟩),
  ("vertical_wind", ⟨[.k, .j, .i], "W", "m/s"⟩),
  ("water_equivalent_of_accumulated_snow_depth", ⟨[.j, .i], "sheleg", "kg/m^2"⟩),
  ("x_wind", ⟨[.k, .jInterface, .i], "u", "m/s"⟩),
  ("x_wind_on_c_grid", ⟨[.k, .j, .iInterface], "uc", "m/s"⟩),
  ("y_wind", ⟨[.k, .j, .iInterface], "v", "m/s"⟩),
  ("y_wind_on_c_grid", ⟨[.k, .jInterface, .i], "vc", "m/s"⟩)]

end NDSL.Restart

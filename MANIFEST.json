{
 "claims": [
  {
   "property": "C01",
   "status": "proved",
   "theorems": [
    "Verif.Drx.C01_drx_roundtrip",
    "Verif.Drx.C01_rounding_nearest"
   ],
   "note": "frame and second counts are always written as 0 by the simulator; the simulator's 64-bit flags are the reader's tuning word and flags"
  },
  {
   "property": "C02",
   "status": "proved",
   "theorems": [
    "Verif.Drx.C02_drx_eof_iff",
    "Verif.Drx.C02_drx_sync_iff",
    "Verif.Drx.C02_drx_ok",
    "Verif.Drx.C02_drx8_eof_iff",
    "Verif.Drx.C02_drx8_sync_iff",
    "Verif.Drx.C02_drx8_ok",
    "Verif.Drx.C02_drx_samples",
    "Verif.Drx.C02_drx8_samples"
   ],
   "note": ""
  },
  {
   "property": "C03",
   "status": "proved",
   "theorems": [
    "Verif.Drx.C03_drx_stream",
    "Verif.Drx.C03_sim_isRaw"
   ],
   "note": ""
  },
  {
   "property": "C04",
   "status": "proved",
   "theorems": [
    "Verif.Drx.C04_id_roundtrip",
    "Verif.Drx.C04_drx_xor_drx8",
    "Verif.Drx.C04_id_injective"
   ],
   "note": ""
  },
  {
   "property": "C05",
   "status": "proved",
   "theorems": [
    "Verif.Drx.C05_align_skips_junk",
    "Verif.Drx.C05_align_sound",
    "Verif.Drx.C05_align_error"
   ],
   "note": ""
  },
  {
   "property": "C06",
   "status": "partial",
   "theorems": [
    "Verif.Vdif.C06_roundtrip_partial",
    "Verif.Vdif.C06_version",
    "Verif.Vdif.C06_odd_length",
    "Verif.Vdif.C06_samples",
    "Verif.Vdif.C06_complex"
   ],
   "note": "the version field written as 1 is read as 2 (proved for all frames); data filling an odd number of 4-byte words are lost (witness); everything else proved"
  },
  {
   "property": "C07",
   "status": "proved",
   "theorems": [
    "Verif.Vdif.C07_repack",
    "Verif.Vdif.C07_unpack",
    "Verif.Vdif.C07_injective"
   ],
   "note": ""
  },
  {
   "property": "C08",
   "status": "proved",
   "theorems": [
    "Verif.Vdif.C08_sync_iff",
    "Verif.Vdif.C08_sync_position",
    "Verif.Vdif.C08_eof_iff",
    "Verif.Vdif.C08_advance",
    "Verif.Vdif.C08_never_back",
    "Verif.Vdif.C08_samples"
   ],
   "note": ""
  },
  {
   "property": "C09",
   "status": "partial",
   "theorems": [
    "Verif.Tbx.C09_terminates",
    "Verif.Tbx.C09_history_free_partial",
    "Verif.Tbx.C09_exact",
    "Verif.Tbx.C09_same_mode",
    "Verif.Tbx.C09_short_file",
    "Verif.Tbx.C09_fields",
    "Verif.Tbx.C09_samples",
    "Verif.Tbx.C09_wire"
   ],
   "note": "false when fewer bytes are left than the last mode needs (witness C09_short_file); proved for all files with 8220 bytes left, all histories; exact limit in C09_exact"
  },
  {
   "property": "C10",
   "status": "partial",
   "theorems": [
    "Verif.Cor.C10_exact",
    "Verif.Cor.C10_history_free_partial",
    "Verif.Cor.C10_same_mode",
    "Verif.Cor.C10_sync_resets",
    "Verif.Cor.C10_never_grows",
    "Verif.Cor.C10_truncates",
    "Verif.Cor.C10_truncates_lengths",
    "Verif.Cor.C10_data_length",
    "Verif.Cor.C10_entries",
    "Verif.Cor.C10_complex_at",
    "Verif.Cor.C10_wire",
    "Verif.Cor.C10_wide_channel"
   ],
   "note": "false: a 192-channel frame read after a 33-channel one is cut (witness); proved when the last frame had at least as many channels; exact dependence in C10_exact"
  },
  {
   "property": "C100",
   "status": "partial",
   "theorems": [
    "Verif.MagField.C100_gradient",
    "Verif.MagField.C100_no_sources",
    "Verif.MagField.C100_components",
    "Verif.MagField.C100_strength",
    "Verif.MagField.C100_ecef_strength",
    "Verif.MagField.C100_geocentric",
    "Verif.MagField.C100_off_pole",
    "Verif.MagField.C100_declination_partial",
    "Verif.MagField.C100_not_south",
    "Verif.MagField.C100_weak",
    "Verif.MagField.C100_inclination",
    "Verif.Igrf.C100_table_last",
    "Verif.Igrf.C100_table_other",
    "Verif.Igrf.C100_model_year",
    "Verif.Igrf.C100_interpolated",
    "Verif.Igrf.C100_secular",
    "Verif.Igrf.C100_too_late",
    "Verif.Igrf.C100_too_early",
    "Verif.Igrf.C100_decimal_year",
    "Verif.Igrf.C100_year_partial",
    "Verif.Igrf.C100_not_time_of_day",
    "Verif.Igrf.C100_not_noon"
   ],
   "note": "Proved: gradient along every curve, no sources, components, strength, inclination, coefficients of all years, declination except exactly south (C100_declination_partial), the year to the day (C100_year_partial). False of the code: the time of day in the year (C100_not_time_of_day), a field to the south (C100_not_south). The conversion of geodetic to Earth-fixed positions is astropy's and not modelled."
  },
  {
   "property": "C101",
   "status": "partial",
   "theorems": [
    "Verif.Rst.C101_rough",
    "Verif.Rst.C101_not_never_up",
    "Verif.Rst.C101_no_jump",
    "Verif.Rst.C101_rise",
    "Verif.Rst.C101_set",
    "Verif.Rst.C101_no_crossing",
    "Verif.Rst.C101_window",
    "Verif.Rst.C101_rise_time_partial",
    "Verif.Rst.C101_set_time_partial",
    "Verif.Rst.C101_not_next",
    "Verif.Rst.C101_step",
    "Verif.Rst.C101_not_transit",
    "Verif.Rst.C101_best",
    "Verif.Rst.C101_result",
    "Verif.Rst.C101_direction",
    "Verif.Rst.C101_southern",
    "Verif.Rst.C101_northern",
    "Verif.Rst.C101_not_southern",
    "Verif.Rst.C101_visible",
    "Verif.Rst.C101_not_southern_visible",
    "Verif.Rst.C101_two_culminations"
   ],
   "note": "Proved: the rough search, crossings to a minute for monotone altitudes (C101_rise_time_partial, C101_set_time_partial), at least two culminations found for stars in the north. False of the code: stars in the south (C101_not_southern), the transit (C101_not_transit), the next rise (C101_not_next), objects never up (C101_not_never_up). Altitude and azimuth are those of a rotating sphere, without refraction and aberration."
  },
  {
   "property": "C102",
   "status": "proved",
   "theorems": [
    "Verif.Pointing.C102_rotation_turns",
    "Verif.Pointing.C102_turns_unique",
    "Verif.Pointing.C102_rotation_rigid",
    "Verif.Pointing.C102_correction_rotates",
    "Verif.Pointing.C102_correction_range",
    "Verif.Pointing.C102_correction_units",
    "Verif.Pointing.C102_correction_undo",
    "Verif.Pointing.C102_correction_none",
    "Verif.Pointing.C102_correction_vertical",
    "Verif.Pointing.C102_correction_tilt",
    "Verif.Pointing.C102_not_zenith",
    "Verif.Pointing.C102_eci_inverse",
    "Verif.Pointing.C102_eci_axes",
    "Verif.Pointing.C102_offset",
    "Verif.Pointing.C102_distance",
    "Verif.Pointing.C102_stand",
    "Verif.Pointing.C102_stand_moves",
    "Verif.Pointing.C102_eci_offset"
   ],
   "note": "Real numbers; the conversions that astropy does (spherical to cartesian and back, ITRS to AltAz by the geodetic latitude and longitude, no refraction) are written out in the model."
  },
  {
   "property": "C103",
   "status": "partial",
   "theorems": [
    "Verif.Hardware.C103_dB_round",
    "Verif.Hardware.C103_dB_back",
    "Verif.Hardware.C103_delay_adds",
    "Verif.Hardware.C103_stretch",
    "Verif.Hardware.C103_delay_ns",
    "Verif.Hardware.C103_delay_dispersion",
    "Verif.Hardware.C103_not_no_cable",
    "Verif.Hardware.C103_gain",
    "Verif.Hardware.C103_atten_dB",
    "Verif.Hardware.C103_atten_formula",
    "Verif.Hardware.C103_atten_multiplies",
    "Verif.Hardware.C103_atten_grows",
    "Verif.Hardware.C103_response",
    "Verif.Hardware.C103_copy_partial",
    "Verif.Hardware.C103_not_copy",
    "Verif.Hardware.C103_filter_partial",
    "Verif.Hardware.C103_not_filter_7",
    "Verif.Hardware.C103_not_column_6",
    "Verif.Hardware.C103_filter_names",
    "Verif.Hardware.C103_filter_other",
    "Verif.Hardware.C103_filter_unknown",
    "Verif.Hardware.C103_arx_response",
    "Verif.Hardware.C103_revision",
    "Verif.Hardware.C103_order",
    "Verif.Hardware.C103_not_hash",
    "Verif.Hardware.C103_station_order",
    "Verif.Hardware.C103_not_put_order",
    "Verif.Hardware.C103_stand_sub",
    "Verif.Hardware.C103_not_numpy",
    "Verif.Hardware.C103_combined"
   ],
   "note": "Proved: cables in a row, dB, gain, growth with frequency, copies of cables without clock offset and attenuator (C103_copy_partial), columns of all filters but one (C103_filter_partial), order, sorting. False of the code: filter 7 (C103_not_filter_7), copies (C103_not_copy), antennas without a cable (C103_not_no_cable), hashes (C103_not_hash), order after an assignment (C103_not_put_order). The order of the columns of the remote data files is inferred from the mapper's other seven entries; that two filters share a column does not depend on it."
  },
  {
   "property": "C104",
   "status": "partial",
   "theorems": [
    "Verif.Dipole.C104_inverse",
    "Verif.Dipole.C104_mueller",
    "Verif.Dipole.C104_mueller_real",
    "Verif.Dipole.C104_products_partial",
    "Verif.Dipole.C104_not_V",
    "Verif.Dipole.C104_not_V_nonzero",
    "Verif.Dipole.C104_products",
    "Verif.Dipole.C104_products_unknown",
    "Verif.Dipole.C104_zenith",
    "Verif.Dipole.C104_horizon",
    "Verif.Dipole.C104_symmetric",
    "Verif.Dipole.C104_fitted",
    "Verif.Dipole.C104_not_unpolarised",
    "Verif.Dipole.C104_not_normalised",
    "Verif.Dipole.C104_cmax",
    "Verif.Dipole.C104_grid",
    "Verif.Dipole.C104_between",
    "Verif.Dipole.C104_outside",
    "Verif.Dipole.C104_interpolate",
    "Verif.Dipole.C104_closed",
    "Verif.Dipole.C104_not_negative",
    "Verif.Dipole.C104_angles_partial",
    "Verif.Dipole.C104_not_ephem"
   ],
   "note": "Proved: the Mueller matrix, I, Q and U (C104_products_partial), the fitted pattern, interpolation and its borders, angles other than an altitude of ephem in degrees (C104_angles_partial). False of the code: V (C104_not_V), unpolarised emission in the empirical model (C104_not_unpolarised), fields at most 1 (C104_not_normalised), negative azimuths (C104_not_negative), altitudes of ephem (C104_not_ephem). Interpolation is linear in each variable, as of scipy."
  },
  {
   "property": "C105",
   "status": "partial",
   "theorems": [
    "Verif.SimSky.C105_channels",
    "Verif.SimSky.C105_single",
    "Verif.SimSky.C105_doppler",
    "Verif.SimSky.C105_density",
    "Verif.SimSky.C105_matched_partial",
    "Verif.SimSky.C105_not_narrow",
    "Verif.SimSky.C105_not_wide",
    "Verif.SimSky.C105_not_between",
    "Verif.SimSky.C105_not_added",
    "Verif.SimSky.C105_units",
    "Verif.SimSky.C105_not_ints",
    "Verif.SimSky.C105_not_low",
    "Verif.SimSky.C105_fwhm",
    "Verif.SimSky.C105_normalised",
    "Verif.SimSky.C105_mean",
    "Verif.SimSky.C105_arx",
    "Verif.SimSky.C105_not_power",
    "Verif.SimSky.C105_root",
    "Verif.SimSky.C105_polarizations_partial",
    "Verif.SimSky.C105_not_zero",
    "Verif.SimSky.C105_left",
    "Verif.SimSky.C105_flat",
    "Verif.SimSky.C105_own_partial",
    "Verif.SimSky.C105_not_own",
    "Verif.SimSky.C105_horizon"
   ],
   "note": "Proved: channels and Doppler shift, flux for bandwidths equal to the channel width (C105_matched_partial), units, widths, normalisation, polarizations with responses other than zero (C105_polarizations_partial), baselines of equal antennas (C105_own_partial), restored flux, horizon. False of the code: other bandwidths (C105_not_narrow, C105_not_wide, C105_not_between), several signals in a channel (C105_not_added), whole numbers (C105_not_ints), power of filters (C105_not_power), zero responses (C105_not_zero), different antennas (C105_not_own). The responses of AIPY's beams are given; the product for the passband of a baseline is taken from AIPY."
  },
  {
   "property": "C106",
   "status": "partial",
   "theorems": [
    "Verif.Sdm.C106_states",
    "Verif.Sdm.C106_parts",
    "Verif.Sdm.C106_antennas",
    "Verif.Sdm.C106_settings_partial",
    "Verif.Sdm.C106_not_dr5",
    "Verif.Sdm.C106_update",
    "Verif.Sdm.C106_update_beyond",
    "Verif.Sdm.C106_not_stand_zero",
    "Verif.Sdm.C106_not_str",
    "Verif.Sdm.C106_not_cut",
    "Verif.Sdm.C106_not_empty"
   ],
   "note": "Proved for all contents: states of subsystems (C106_states), parts, antennas, settings but for the intervals of DR5 (C106_settings_partial), update of antennas for stands 1 to 256. False of the code: DR5 (C106_not_dr5), printing (C106_not_str), stand 0 (C106_not_stand_zero), short files (C106_not_cut, C106_not_empty). Left out: texts with bytes after a zero are cut there, as ctypes does; the float sum of seconds and microseconds is exact here."
  },
  {
   "property": "C107",
   "status": "partial",
   "theorems": [
    "Verif.Posn.C107_wf",
    "Verif.Posn.C107_set",
    "Verif.Posn.C107_from_equ_partial",
    "Verif.Posn.C107_not_plain_frame",
    "Verif.Posn.C107_from_gal",
    "Verif.Posn.C107_from_hrz",
    "Verif.Posn.C107_from_ecl",
    "Verif.Posn.C107_gal_round",
    "Verif.Posn.C107_equ_round",
    "Verif.Posn.C107_not_hrz_round",
    "Verif.Posn.C107_not_rect",
    "Verif.Posn.C107_prec2",
    "Verif.Posn.C107_to_gal",
    "Verif.Posn.C107_to_equ",
    "Verif.Posn.C107_copy_partial",
    "Verif.Posn.C107_not_copy",
    "Verif.Posn.C107_separation_partial",
    "Verif.Posn.C107_not_separation",
    "Verif.Posn.C107_celestial",
    "Verif.Posn.C107_celestial_posn_partial",
    "Verif.Posn.C107_not_celestial_frame",
    "Verif.Posn.C107_celestial_refused",
    "Verif.Posn.C107_pointing_partial",
    "Verif.Posn.C107_not_ecl",
    "Verif.Posn.C107_planet"
   ],
   "note": "Proved for all skies: conversions of positions that are plain or have a SkyCoord (C107_from_equ_partial), galactic ones always, round trips from equatorial and galactic angles, precession, setters, formats and epochs, planets, pointings (C107_pointing_partial), copies of J2000 positions (C107_copy_partial). False of the code: frame objects (C107_not_plain_frame, C107_not_hrz_round, C107_not_ecl, C107_not_rect), copies of other frames (C107_not_copy, C107_not_celestial_frame), separations of plain positions (C107_not_separation). transform_to is taken to keep the direction; proper motions and distances are left out."
  },
  {
   "property": "C108",
   "status": "partial",
   "theorems": [
    "Verif.TimeObj.C108_round",
    "Verif.TimeObj.C108_systems",
    "Verif.TimeObj.C108_dates",
    "Verif.TimeObj.C108_mcs_near",
    "Verif.TimeObj.C108_mcs",
    "Verif.TimeObj.C108_not_mcs_range",
    "Verif.TimeObj.C108_dp_partial",
    "Verif.TimeObj.C108_not_dp",
    "Verif.TimeObj.C108_dp_iff",
    "Verif.TimeObj.C108_not_dp_apart",
    "Verif.TimeObj.C108_number",
    "Verif.TimeObj.C108_not_dp_grain",
    "Verif.TimeObj.C108_order",
    "Verif.TimeObj.C108_refused",
    "Verif.TimeObj.C108_types"
   ],
   "note": "Proved: numbers come back in their format and system and are the same moment in the other one, dates, texts and astropy times, day and milliseconds for every stored moment within half a millisecond, order by moments, what is refused, whole seconds of ticks until 2342 (C108_dp_partial). False of the code: all other ticks (C108_not_dp, C108_dp_iff, C108_not_dp_apart, C108_not_dp_grain) and the last half millisecond of a day (C108_not_mcs_range). Apart from the ticks numbers are exact; astropy keeps a time as a modified Julian day in a scale."
  },
  {
   "property": "C109",
   "status": "partial",
   "theorems": [
    "Verif.Catalog.C109_lookup",
    "Verif.Catalog.C109_iter",
    "Verif.Catalog.C109_contains",
    "Verif.Catalog.C109_file",
    "Verif.Catalog.C109_lines",
    "Verif.Catalog.C109_place",
    "Verif.Catalog.C109_place_ok",
    "Verif.Catalog.C109_minutes",
    "Verif.Catalog.C109_lwa",
    "Verif.Catalog.C109_pks",
    "Verif.Catalog.C109_pks90",
    "Verif.Catalog.C109_3c",
    "Verif.Catalog.C109_4c_partial",
    "Verif.Catalog.C109_lwa_digits",
    "Verif.Catalog.C109_skip",
    "Verif.Catalog.C109_bad_number",
    "Verif.Catalog.C109_not_short",
    "Verif.Catalog.C109_not_blank",
    "Verif.Catalog.C109_not_4c_end",
    "Verif.Catalog.C109_psr_b",
    "Verif.Catalog.C109_psr_j",
    "Verif.Catalog.C109_psr_out",
    "Verif.Catalog.C109_psr_kinds",
    "Verif.Catalog.C109_psr_range",
    "Verif.Catalog.C109_psr_file_partial",
    "Verif.Catalog.C109_not_psr_last",
    "Verif.Catalog.C109_not_psr_first",
    "Verif.Catalog.C109_not_psr_fraction",
    "Verif.Catalog.C109_not_psr_prefix",
    "Verif.Catalog.C109_fermi",
    "Verif.Catalog.C109_factory"
   ],
   "note": "Proved: keys, order and number of sources for all lists of sources, lines of files, columns of the five catalogs with any text between (C109_4c_partial with a line end), angles and signs, pulsars for all files of whole records (C109_psr_file_partial), Fermi names, the factory. False of the code: C109_not_psr_first, C109_not_psr_fraction, C109_not_psr_prefix, C109_not_psr_last, C109_not_4c_end, C109_not_blank, C109_not_short. Conversion from B1950 is C107; numbers are exact and without exponents."
  },
  {
   "property": "C11",
   "status": "partial",
   "theorems": [
    "Verif.Drspec.C11_in_bounds_iff",
    "Verif.Drspec.C11_safe_partial",
    "Verif.Drspec.C11_out_of_bounds",
    "Verif.Drspec.C11_empty_format",
    "Verif.Drspec.C11_products",
    "Verif.Drspec.C11_absent",
    "Verif.Drspec.C11_place_bijective",
    "Verif.Drspec.C11_nonzero_partial",
    "Verif.Drspec.C11_zero_fill",
    "Verif.Drspec.C11_overflow",
    "Verif.Drspec.C11_history",
    "Verif.Drspec.C11_float_at",
    "Verif.Drspec.C11_wire",
    "Verif.Drspec.C11_data_length",
    "Verif.Drspec.C11_sync_position"
   ],
   "note": "false for formats with two or three products that no recorder writes and for zero fill counts; exact set of safe formats proved; correct placement proved for every recorded format"
  },
  {
   "property": "C110",
   "status": "partial",
   "theorems": [
    "Verif.SdFits.C110_sorted",
    "Verif.SdFits.C110_write_partial",
    "Verif.SdFits.C110_beams",
    "Verif.SdFits.C110_apart",
    "Verif.SdFits.C110_not_fast",
    "Verif.SdFits.C110_not_missing",
    "Verif.SdFits.C110_not_first_lost",
    "Verif.SdFits.C110_not_first",
    "Verif.SdFits.C110_not_product",
    "Verif.SdFits.C110_not_beam",
    "Verif.SdFits.C110_products_partial",
    "Verif.SdFits.C110_not_gaps",
    "Verif.SdFits.C110_names",
    "Verif.SdFits.C110_frequency_partial",
    "Verif.SdFits.C110_not_down",
    "Verif.SdFits.C110_date"
   ],
   "note": "Proved for all files of whole scans (every product has the same beams) with products in the order of their absolute codes and scans apart by 10^-7 days for every difference of codes (C110_write_partial; C110_apart: 26 ms suffice for linear products), for products with successive codes (C110_products_partial) and for channels at equal steps upwards (C110_frequency_partial). False of the code: C110_not_fast, C110_not_missing, C110_not_first_lost, C110_not_first, C110_not_product, C110_not_beam, C110_not_gaps, C110_not_down. Times are exact; the binary table itself is not modelled."
  },
  {
   "property": "C111",
   "status": "partial",
   "theorems": [
    "Verif.Nec.C111_value",
    "Verif.Nec.C111_open",
    "Verif.Nec.C111_open_none",
    "Verif.Nec.C111_impedance",
    "Verif.Nec.C111_fields",
    "Verif.Nec.C111_z",
    "Verif.Nec.C111_no_impedance",
    "Verif.Nec.C111_ime",
    "Verif.Nec.C111_card",
    "Verif.Nec.C111_join",
    "Verif.Nec.C111_change",
    "Verif.Nec.C111_ended",
    "Verif.Nec.C111_file",
    "Verif.Nec.C111_not_comma_blank",
    "Verif.Nec.C111_not_short",
    "Verif.Nec.C111_close",
    "Verif.Nec.C111_action",
    "Verif.Nec.C111_not_file",
    "Verif.Nec.C111_radiation",
    "Verif.Nec.C111_angle",
    "Verif.Nec.C111_below",
    "Verif.Nec.C111_table_end",
    "Verif.Nec.C111_records_partial",
    "Verif.Nec.C111_record",
    "Verif.Nec.C111_not_last",
    "Verif.Nec.C111_not_more",
    "Verif.Nec.C111_not_impedance",
    "Verif.Nec.C111_amplitude",
    "Verif.Nec.C111_phase",
    "Verif.Nec.C111_not_phase"
   ],
   "note": "Proved: frequencies and impedances for all files of whole blocks, fields that touch, power, cards with one separator between fields, other lines, gains line by line, currents where a line follows the last record (C111_records_partial), absolute values and the phases of currents. False of the code: C111_not_phase, C111_not_comma_blank, C111_not_short, C111_not_file, C111_not_last, C111_not_more, C111_not_impedance. How numbers are read from text is a parameter; regridding of the power is not modelled."
  },
  {
   "property": "C112",
   "status": "partial",
   "theorems": [
    "Verif.Vdif.C112_threads",
    "Verif.Vdif.C112_file_threads",
    "Verif.Vdif.C112_mode",
    "Verif.Vdif.C112_rate_partial",
    "Verif.Vdif.C112_sample_rate_partial",
    "Verif.Vdif.C112_not_last",
    "Verif.Vdif.C112_not_missing",
    "Verif.Vdif.C112_not_stopped",
    "Verif.Vdif.C112_not_many",
    "Verif.Vdif.C112_offset_partial",
    "Verif.Vdif.C112_not_offset",
    "Verif.Vdif.C112_samples",
    "Verif.Vdif.C112_nict",
    "Verif.Vdif.C112_alma",
    "Verif.Vdif.C112_nrao",
    "Verif.Vdif.C112_versions",
    "Verif.Vdif.C112_written_partial",
    "Verif.Vdif.C112_not_fast",
    "Verif.Vdif.C112_haystack_partial",
    "Verif.Vdif.C112_not_frame",
    "Verif.Vdif.C112_timecode_partial",
    "Verif.Vdif.C112_not_timecode",
    "Verif.Vdif.C112_not_check",
    "Verif.Vdif.C112_not_linear",
    "Verif.Vdif.C112_guppi",
    "Verif.Vdif.C112_not_guppi"
   ],
   "note": "Proved: threads, rates of files of any length that do not begin with the last frame of a second and have all threads at every time (C112_rate_partial), times for whole rates (C112_offset_partial), all versions of extended data (C112_haystack_partial: frame numbers below 2^14; C112_timecode_partial: with the wrong digit), the writer's rate up to 2^23 kHz. False of the code: C112_not_last, C112_not_missing, C112_not_stopped, C112_not_many, C112_not_offset, C112_not_fast, C112_not_frame, C112_not_timecode, C112_not_check, C112_not_linear, C112_not_guppi. The cards of GUPPI headers are not modelled."
  },
  {
   "property": "C113",
   "status": "partial",
   "theorems": [
    "Verif.FrameMath.C113_inplace",
    "Verif.FrameMath.C113_new",
    "Verif.FrameMath.C113_same_frame",
    "Verif.FrameMath.C113_same_number",
    "Verif.FrameMath.C113_self",
    "Verif.FrameMath.C113_complex_sum_partial",
    "Verif.FrameMath.C113_complex_difference_partial",
    "Verif.FrameMath.C113_complex_product_partial",
    "Verif.FrameMath.C113_complex_quotient_partial",
    "Verif.FrameMath.C113_complex_number",
    "Verif.FrameMath.C113_complex_real",
    "Verif.FrameMath.C113_undo_sum",
    "Verif.FrameMath.C113_byte_unique",
    "Verif.FrameMath.C113_bytes",
    "Verif.FrameMath.C113_bytes_exact",
    "Verif.FrameMath.C113_real",
    "Verif.FrameMath.C113_real_laws",
    "Verif.FrameMath.C113_complex_array",
    "Verif.FrameMath.C113_converted",
    "Verif.FrameMath.C113_lengths",
    "Verif.FrameMath.C113_types",
    "Verif.FrameMath.C113_not_half",
    "Verif.FrameMath.C113_not_mean",
    "Verif.FrameMath.C113_not_fraction",
    "Verif.FrameMath.C113_not_imaginary",
    "Verif.FrameMath.C113_not_all",
    "Verif.FrameMath.C113_integers",
    "Verif.FrameMath.C113_not_init",
    "Verif.FrameMath.C113_order",
    "Verif.FrameMath.C113_transitive",
    "Verif.FrameMath.C113_not_equal",
    "Verif.FrameMath.C113_spectra_partial",
    "Verif.FrameMath.C113_spectra_number",
    "Verif.FrameMath.C113_not_products",
    "Verif.FrameMath.C113_not_symmetric",
    "Verif.FrameMath.C113_not_channels"
   ],
   "note": "Proved: which arrays are changed, values of complex and real frames in exact numbers (C113_complex_*_partial: single precision is not modelled), bytes modulo 256, order, and spectrometer frames with the same products (C113_spectra_partial). False of the code: C113_not_half, C113_not_mean, C113_not_fraction, C113_not_imaginary, C113_not_all, C113_not_init, C113_not_equal, C113_not_products, C113_not_symmetric, C113_not_channels. What numpy does when a fraction out of range is made a byte is taken to be modulo 256."
  },
  {
   "property": "C114",
   "status": "partial",
   "theorems": [
    "Verif.MathFns.C114_nodes",
    "Verif.MathFns.C114_between_partial",
    "Verif.MathFns.C114_line",
    "Verif.MathFns.C114_refused",
    "Verif.MathFns.C114_values",
    "Verif.MathFns.C114_not_decreasing",
    "Verif.MathFns.C114_height",
    "Verif.MathFns.C114_scale",
    "Verif.MathFns.C114_shift",
    "Verif.MathFns.C114_symmetric",
    "Verif.MathFns.C114_peak",
    "Verif.MathFns.C114_width",
    "Verif.MathFns.C114_plane",
    "Verif.MathFns.C114_plane_height",
    "Verif.MathFns.C114_not_background",
    "Verif.MathFns.C114_not_integers",
    "Verif.Ndft.C114_rect_polar",
    "Verif.Ndft.C114_polar_rect",
    "Verif.Ndft.C114_polar_negative",
    "Verif.Ndft.C114_ndft_partial",
    "Verif.Ndft.C114_zero",
    "Verif.Ndft.C114_steps",
    "Verif.Ndft.C114_linear",
    "Verif.Ndft.C114_later",
    "Verif.Ndft.C114_conjugate",
    "Verif.Ndft.C114_span",
    "Verif.Ndft.C114_not_dft",
    "Verif.Ndft.C114_not_frequencies"
   ],
   "note": "Proved for exact numbers: regridding of increasing abscissas (C114_between_partial, C114_nodes, C114_line), polar numbers, the transform at the frequencies returned (C114_ndft_partial), moments. False of the code: C114_not_decreasing, C114_not_dft, C114_not_frequencies, C114_not_background, C114_not_integers. Splines are not modelled, nor the rounding of numbers."
  },
  {
   "property": "C115",
   "status": "partial",
   "theorems": [
    "Verif.Guppi.C115_int",
    "Verif.Guppi.C115_float",
    "Verif.Guppi.C115_text_partial",
    "Verif.Guppi.C115_cards",
    "Verif.Guppi.C115_value",
    "Verif.Guppi.C115_card_int",
    "Verif.Guppi.C115_card_text_partial",
    "Verif.Guppi.C115_continued_partial",
    "Verif.Guppi.C115_no_end",
    "Verif.Guppi.C115_hertz",
    "Verif.Guppi.C115_hertz_float",
    "Verif.Guppi.C115_read",
    "Verif.Guppi.C115_not_comment",
    "Verif.Guppi.C115_not_bandwidth",
    "Verif.Guppi.C115_not_comment_card",
    "Verif.Guppi.C115_not_end",
    "Verif.Guppi.C115_not_text",
    "Verif.Guppi.C115_not_continued",
    "Verif.Guppi.C115_not_empty",
    "Verif.Guppi.C115_not_first"
   ],
   "note": "Proved: headers of any number of cards with distinct names (C115_cards, C115_read), integers, texts without quotes (C115_text_partial, C115_card_text_partial), continued texts with one continuation (C115_continued_partial), missing end. False of the code: C115_not_comment, C115_not_bandwidth, C115_not_comment_card, C115_not_end, C115_not_text, C115_not_continued, C115_not_empty, C115_not_first. Python's float is a parameter, and bytes that are not ASCII are left out."
  },
  {
   "property": "C12",
   "status": "proved",
   "theorems": [
    "Verif.Timestamp.C12_timetag_roundtrip",
    "Verif.Timestamp.C12_tolerant"
   ],
   "note": "floats idealised to rationals; C12_tolerant gives the tolerated float error"
  },
  {
   "property": "C13",
   "status": "partial",
   "theorems": [
    "Verif.Timestamp.C13_init_partial",
    "Verif.Timestamp.C13_negative_whole",
    "Verif.Timestamp.C13_init_float",
    "Verif.Timestamp.C13_getItem",
    "Verif.Timestamp.C13_rebuild",
    "Verif.Timestamp.C13_mjd_mpm"
   ],
   "note": "the fraction is 1 (not in [0,1)) when the fraction given is a negative whole number (proved for all of them); everything else proved; astropy time idealised to a rational"
  },
  {
   "property": "C14",
   "status": "partial",
   "theorems": [
    "Verif.Buffer.C14_get_increasing_partial",
    "Verif.Buffer.C14_final_flush_partial",
    "Verif.Buffer.C14_flush_returns_again"
   ],
   "note": "proved for append/get histories and for a final flush; false when appends follow a flush (negation proved)"
  },
  {
   "property": "C15",
   "status": "proved",
   "theorems": [
    "Verif.Buffer.C15_exactly_once",
    "Verif.Buffer.C15_flush_complete",
    "Verif.Buffer.C15_fill_zero",
    "Verif.Buffer.drxCfg_ok"
   ],
   "note": "accepted = newer than the most recently returned time step at arrival"
  },
  {
   "property": "C16",
   "status": "partial",
   "theorems": [
    "Verif.Buffer.C16_never_displaced_partial",
    "Verif.Buffer.C16_complete_group_partial",
    "Verif.Buffer.C16_duplicate_hides_missing",
    "Verif.Buffer.C16_cor_loses_channels"
   ],
   "note": "false in general: a duplicate hides a missing frame, and COR duplicates are recognised by stand pair only (both negations proved); proved when every id was received"
  },
  {
   "property": "C17",
   "status": "proved",
   "theorems": [
    "Verif.Buffer.C17_accounting",
    "Verif.Buffer.C17_dropped_is_late"
   ],
   "note": ""
  },
  {
   "property": "C18",
   "status": "proved",
   "theorems": [
    "Verif.Buffer.C18_bounded",
    "Verif.Buffer.C18_one_step_groups"
   ],
   "note": ""
  },
  {
   "property": "C19",
   "status": "partial",
   "theorems": [
    "Verif.SplitFile.C19_read_exact",
    "Verif.SplitFile.C19_no_loss",
    "Verif.SplitFile.C19_read_partial",
    "Verif.SplitFile.C19_seek",
    "Verif.SplitFile.C19_refines_partial",
    "Verif.SplitFile.C19_eof",
    "Verif.SplitFile.C19_three_parts",
    "Verif.SplitFile.C19_empty_part",
    "Verif.SplitFile.C19_seek_end",
    "Verif.SplitFile.C19_negative_seek"
   ],
   "note": "false when one read spans three parts or meets an empty part, and for seeks from the end with the usual sign (witnesses); refinement proved for parts at least as long as the reads; no byte is lost or repeated in any case"
  },
  {
   "property": "C20",
   "status": "partial",
   "theorems": [
    "Verif.FileCache.C20_evicts_partial",
    "Verif.FileCache.C20_managed_partial",
    "Verif.FileCache.C20_no_limit",
    "Verif.FileCache.C20_below_limit",
    "Verif.FileCache.C20_newest",
    "Verif.FileCache.C20_stuck"
   ],
   "note": "false when the oldest entry cannot be unlinked, e.g. a sub-directory (never ends, proved for every number of passes); proved when removals succeed"
  },
  {
   "property": "C21",
   "status": "partial",
   "theorems": [
    "Verif.MemoryFile.C21_refines_partial",
    "Verif.MemoryFile.C21_write_read",
    "Verif.MemoryFile.C21_rewound",
    "Verif.MemoryFile.C21_others",
    "Verif.MemoryFile.C21_append",
    "Verif.MemoryFile.C21_append_witness",
    "Verif.MemoryFile.C21_missing",
    "Verif.MemoryFile.C21_truncate",
    "Verif.MemoryFile.C21_iter",
    "Verif.MemoryFile.C21_iter_witness",
    "Verif.MemoryFile.C21_evicted"
   ],
   "note": "false for append mode (proved for every file), reading a missing file, truncate beyond the end, iteration and over-full caches; refinement of regular files proved for all sequences of read and write sessions"
  },
  {
   "property": "C22",
   "status": "partial",
   "theorems": [
    "Verif.FileLock.C22_exclusion_partial",
    "Verif.FileLock.C22_available_partial",
    "Verif.FileLock.C22_locked_partial",
    "Verif.FileLock.C22_shared",
    "Verif.FileLock.C22_nested",
    "Verif.FileLock.C22_with_timeout",
    "Verif.FileLock.C22_memory_lock",
    "Verif.FileLock.C22_memory_available",
    "Verif.FileLock.C22_memory_release",
    "Verif.FileLock.C22_memory_locked"
   ],
   "note": "false for threads sharing a FileLock object, nested acquires and with blocks after a timeout (witnesses); proved for users with their own objects in all interleavings with crashes; proved for the memory lock with nesting"
  },
  {
   "property": "C23",
   "status": "proved",
   "theorems": [
    "Verif.McsTime.C23_mjd_is_day_count",
    "Verif.McsTime.C23_epoch",
    "Verif.McsTime.C23_next_day",
    "Verif.McsTime.C23_mpm_range",
    "Verif.McsTime.C23_instant",
    "Verif.McsTime.C23_roundtrip"
   ],
   "note": "datetime.fromtimestamp is taken as: the calendar date and time at the given instant"
  },
  {
   "property": "C24",
   "status": "partial",
   "theorems": [
    "Verif.Words.C24_delay_roundtrip_partial",
    "Verif.Words.C24_delay_wraps",
    "Verif.Words.C24_word_roundtrip"
   ],
   "note": "proved for delays below 4096 samples; longer delays silently wrap (proved)"
  },
  {
   "property": "C25",
   "status": "partial",
   "theorems": [
    "Verif.Words.C25_gain_roundtrip_partial",
    "Verif.Words.C25_negative_gain",
    "Verif.Words.C25_word_twos_complement"
   ],
   "note": "proved for gains in [0,1]; a negative gain comes back as a gain above 1 (proved for all of them)"
  },
  {
   "property": "C26",
   "status": "proved",
   "theorems": [
    "Verif.Words.C26_word_roundtrip",
    "Verif.Words.C26_freq_nearest",
    "Verif.Words.C26_monotone",
    "Verif.Words.C26_range"
   ],
   "note": "frequencies are exact rationals"
  },
  {
   "property": "C27",
   "status": "proved",
   "theorems": [
    "Verif.FlatMulti.C27_reshape",
    "Verif.FlatMulti.C27_in_range",
    "Verif.FlatMulti.C27_mismatch"
   ],
   "note": ""
  },
  {
   "property": "C28",
   "status": "partial",
   "theorems": [
    "Verif.Mib.C28_int_partial",
    "Verif.Mib.C28_zero_byte",
    "Verif.Mib.C28_correct_iff",
    "Verif.Mib.C28_small_i4u",
    "Verif.Mib.C28_fails"
   ],
   "note": "false for every non-zero number with a zero byte (read as 0, proved); exact characterisation proved"
  },
  {
   "property": "C29",
   "status": "proved",
   "theorems": [
    "Verif.Sdf.C29_overlap",
    "Verif.Sdf.C29_order",
    "Verif.Sdf.C29_zero_length"
   ],
   "note": ""
  },
  {
   "property": "C30",
   "status": "proved",
   "theorems": [
    "Verif.Sdf.C30_roundtrip",
    "Verif.Sdf.C30_injective",
    "Verif.Sdf.C30_file",
    "Verif.Sdf.C30_nearest",
    "Verif.Sdf.C30_timedelta",
    "Verif.Sdf.C30_quantity"
   ],
   "note": "durations given as astropy quantities always raise (C30_quantity)"
  },
  {
   "property": "C31",
   "status": "partial",
   "theorems": [
    "Verif.SdfParse.C31_exact",
    "Verif.SdfParse.C31_roundtrip_partial",
    "Verif.SdfParse.C31_single",
    "Verif.SdfParse.C31_own_attributes",
    "Verif.SdfParse.C31_leak",
    "Verif.SdfParse.C31_leak_asp",
    "Verif.SdfParse.C31_step_leak",
    "Verif.SdfParse.C31_fee_lost",
    "Verif.SdfParse.C31_ra_rounds",
    "Verif.SdfParse.C31_angle"
   ],
   "note": "false when an observation relies on a default that an earlier one changed (witness and general ASP leak), for FEE settings of one polarisation of all antennas and for RA rounding to 24 h; what parsing gives is proved exactly for every session, round trip for all sessions without such resets"
  },
  {
   "property": "C32",
   "status": "partial",
   "theorems": [
    "Verif.Sdf.C32_exact",
    "Verif.Sdf.C32_maximum_refused",
    "Verif.Sdf.C32_steps_partial"
   ],
   "note": "false for exactly the maximum number of steps, which is refused; proved for all others"
  },
  {
   "property": "C33",
   "status": "partial",
   "theorems": [
    "Verif.Baselines.C33_exists",
    "Verif.Baselines.C33_count",
    "Verif.Baselines.C33_complete",
    "Verif.Baselines.C33_order",
    "Verif.Baselines.C33_search",
    "Verif.Baselines.C33_not_found",
    "Verif.Baselines.C33_inverse_partial",
    "Verif.Baselines.C33_auto"
   ],
   "note": "false for looking up an antenna paired with itself (finds another baseline, C33_auto); everything else proved"
  },
  {
   "property": "C34",
   "status": "proved",
   "theorems": [
    "Verif.Uvw.C34_components",
    "Verif.Uvw.C34_length",
    "Verif.Uvw.C34_antisymmetric",
    "Verif.Uvw.C34_closure",
    "Verif.Uvw.C34_right_handed",
    "Verif.Uvw.C34_zenith",
    "Verif.Uvw.C34_period",
    "Verif.Uvw.C34_rows"
   ],
   "note": "floats idealised to reals"
  },
  {
   "property": "C35",
   "status": "partial",
   "theorems": [
    "Verif.Config.C35_set_visible_partial",
    "Verif.Config.C35_set_refused",
    "Verif.Config.C35_restored",
    "Verif.Config.C35_unchanged",
    "Verif.Config.C35_inside",
    "Verif.Config.C35_set_lost",
    "Verif.Config.C35_exception",
    "Verif.Config.C35_type",
    "Verif.Config.C35_view"
   ],
   "note": "undoing is proved for every program; false: a permanent change inside a temporary one of the same parameter is lost, a KeyError of the body comes out as ValueError, views do not fall back when setting"
  },
  {
   "property": "C36",
   "status": "partial",
   "theorems": [
    "Verif.ConfigFile.C36_reload",
    "Verif.ConfigFile.C36_roundtrip_partial",
    "Verif.ConfigFile.C36_only_faithful",
    "Verif.ConfigFile.C36_float_repr",
    "Verif.ConfigFile.C36_digits",
    "Verif.ConfigFile.C36_none_default",
    "Verif.ConfigFile.C36_saved",
    "Verif.ConfigFile.C36_second_save_lost",
    "Verif.ConfigFile.C36_conflict",
    "Verif.ConfigFile.C36_unchanged"
   ],
   "note": "false for strings that look like numbers or booleans, for empty values of parameters with a default and for the second save of a session; exactly what comes back is proved for every set of parameters"
  },
  {
   "property": "C37",
   "status": "partial",
   "theorems": [
    "Verif.Telemetry.C37_counted_iff",
    "Verif.Telemetry.C37_track",
    "Verif.Telemetry.C37_write",
    "Verif.Telemetry.C37_conserved_partial",
    "Verif.Telemetry.C37_overwrite",
    "Verif.Telemetry.C37_ignore",
    "Verif.Telemetry.C37_disable",
    "Verif.Telemetry.C37_bounded"
   ],
   "note": "false for two writes in one second and for ignore(), which does nothing; conservation proved for writes in different seconds"
  },
  {
   "property": "C38",
   "status": "partial",
   "theorems": [
    "Verif.Header.C38_roundtrip_partial",
    "Verif.Header.C38_text_partial",
    "Verif.Header.C38_box_partial",
    "Verif.Header.C38_box_width",
    "Verif.Header.C38_section_after_key",
    "Verif.Header.C38_empty_section",
    "Verif.Header.C38_comment_removed"
   ],
   "note": "false for a section after a key/value pair, empty sections and values with the comment character; round trip proved for all other nested headers, as comment lines and as a box"
  },
  {
   "property": "C39",
   "status": "partial",
   "theorems": [
    "Verif.Registry.C39_listed_iff_partial",
    "Verif.Registry.C39_handlers_partial",
    "Verif.Registry.C39_close_all_partial",
    "Verif.Registry.C39_double_close",
    "Verif.Registry.C39_failed_open"
   ],
   "note": "false after closing a reader twice and after a failed open; proved for all other sequences"
  },
  {
   "property": "C40",
   "status": "partial",
   "theorems": [
    "Verif.Ldp.C40_reads_partial",
    "Verif.Ldp.C40_everything_once_partial",
    "Verif.Ldp.C40_steps_of_file",
    "Verif.Ldp.C40_content_of_frame",
    "Verif.Ldp.C40_read_ends",
    "Verif.Ldp.C40_frameCount",
    "Verif.Ldp.C40_gap_filled",
    "Verif.Ldp.C40_gap_limit",
    "Verif.Ldp.C40_other_beam_overflows",
    "Verif.Ldp.C40_gap_tuning2_raises",
    "Verif.Ldp.C40_gap_at_end_raises",
    "Verif.Ldp.C40_gap_at_partial_end_raises",
    "Verif.Ldp.C40_late_at_end_raises",
    "Verif.Ldp.C40_late_tuning_shifted",
    "Verif.Ldp.C40_empty_read"
   ],
   "note": "for files in which every time step has at least one frame and no frame is repeated; for other files the property is false (witnesses); termination and the upper limit hold for every file"
  },
  {
   "property": "C41",
   "status": "partial",
   "theorems": [
    "Verif.Astro.C41_dms_roundtrip",
    "Verif.Astro.C41_dms_fields",
    "Verif.Astro.C41_hms_roundtrip_partial",
    "Verif.Astro.C41_hms_negative",
    "Verif.Astro.C41_hms_negative_witness",
    "Verif.Astro.C41_hms_large",
    "Verif.Astro.C41_dms_large",
    "Verif.Astro.C41_dms_float_minute_off",
    "Verif.Astro.C41_hms_float_minute_off",
    "Verif.Astro.C41_dms_ranges",
    "Verif.Astro.C41_range_degrees",
    "Verif.Astro.C41_range_degrees_float",
    "Verif.Astro.C41_range_hours",
    "Verif.Astro.C41_range_hours_witness",
    "Verif.Astro.C41_add_secs_partial",
    "Verif.Astro.C41_add_hms_hours",
    "Verif.Astro.C41_add_hms_witness",
    "Verif.Astro.C41_add_hms_partial",
    "Verif.Astro.C41_nswe",
    "Verif.Astro.C41_mjd_roundtrip",
    "Verif.Astro.C41_mjd_refused",
    "Verif.Astro.C41_seconds"
   ],
   "note": "Exact arithmetic round trips for all angles; false of the code for negative angles in hours, for add_hms, range_hours at multiples of -24 and for floats near full minutes (witness theorems)."
  },
  {
   "property": "C42",
   "status": "partial",
   "theorems": [
    "Verif.Astro.C42_weekday_partial",
    "Verif.Astro.C42_weekday_midnight",
    "Verif.Astro.C42_weekday_witness"
   ],
   "note": "Correct at every time of day except exact midnight, where every second day is reported as the day before (proved for all dates)."
  },
  {
   "property": "C43",
   "status": "proved",
   "theorems": [
    "Verif.MathUtils.C43_values",
    "Verif.MathUtils.C43_total",
    "Verif.MathUtils.C43_zero"
   ],
   "note": "Exact arithmetic; with rescale each value is the mean."
  },
  {
   "property": "C44",
   "status": "proved",
   "theorems": [
    "Verif.MathUtils.C44_degree",
    "Verif.MathUtils.C44_order",
    "Verif.MathUtils.C44_count",
    "Verif.MathUtils.C44_terms",
    "Verif.MathUtils.C44_sorted",
    "Verif.MathUtils.C44_in_bounds"
   ],
   "note": "For every lmax, and bounds for every number of coefficients; square roots are the integer square roots."
  },
  {
   "property": "C45",
   "status": "proved",
   "theorems": [
    "Verif.ObsFile.C45_accepted_is_complete",
    "Verif.ObsFile.C45_complete_is_accepted",
    "Verif.ObsFile.C45_truncated",
    "Verif.ObsFile.C45_too_many"
   ],
   "note": "conversion of the fields to dictionary values is not modelled"
  },
  {
   "property": "C46",
   "status": "partial",
   "theorems": [
    "Verif.TarPath.C46_check",
    "Verif.TarPath.C46_writes_partial",
    "Verif.TarPath.C46_written",
    "Verif.TarPath.C46_opened",
    "Verif.TarPath.C46_plain",
    "Verif.TarPath.C46_open_witness",
    "Verif.TarPath.C46_link_witness"
   ],
   "note": "False of the code: refused members are still opened, links lead out. Proved for tarballs without links: all writes are confined."
  },
  {
   "property": "C47",
   "status": "proved",
   "theorems": [
    "Verif.AspMode.C47_mode",
    "Verif.AspMode.C47_empty"
   ],
   "note": ""
  },
  {
   "property": "C48",
   "status": "partial",
   "theorems": [
    "Verif.Ssmif.C48_wired_partial",
    "Verif.Ssmif.C48_line_partial",
    "Verif.Ssmif.C48_file_partial",
    "Verif.Ssmif.C48_text_partial",
    "Verif.Ssmif.C48_parts_partial",
    "Verif.Ssmif.C48_defaults",
    "Verif.Ssmif.C48_asp",
    "Verif.Ssmif.C48_arb_port",
    "Verif.Ssmif.C48_asp_at3",
    "Verif.Ssmif.C48_at3_refused",
    "Verif.Ssmif.C48_index_zero",
    "Verif.Ssmif.C48_spare_fee",
    "Verif.Ssmif.C48_spare_cable",
    "Verif.Ssmif.C48_spare_channel",
    "Verif.Ssmif.C48_spares",
    "Verif.Ssmif.C48_arx_limit",
    "Verif.Ssmif.C48_arx_unnamed",
    "Verif.Ssmif.C48_station_comment"
   ],
   "note": "For one-to-one tables with up to 512 antennas the antennas come out in digitizer order 1..N with their own stand, FEE, cable, ARX channel and SNAP input, for any size of the tables; every setting line but ARB_PORT and ASP_AT3 changes only its own entry, for files of any length of such lines. False as stated: ARB_PORT writes the rack, ASP_AT3[i] writes attenuator 1 or is refused, spare FEE ports, cables and SNAP channels marked 0 change the last antenna, antennas above 512 get no ARX channel. Text files only; the binary reader is not modelled. Floats are taken as an uninterpreted reading of the text."
  },
  {
   "property": "C49",
   "status": "partial",
   "theorems": [
    "Verif.DataAccess.C49_sequence_partial",
    "Verif.DataAccess.C49_unreachable",
    "Verif.DataAccess.C49_retry",
    "Verif.DataAccess.C49_backup",
    "Verif.DataAccess.C49_kept",
    "Verif.DataAccess.C49_local_first",
    "Verif.DataAccess.C49_truncated",
    "Verif.DataAccess.C49_raised",
    "Verif.DataAccess.C49_crash",
    "Verif.DataAccess.C49_local_crash",
    "Verif.DataAccess.C49_refresh_lost"
   ],
   "note": "For every sequence of calls in which downloads either complete or fail with an IOError, each call gives a complete copy or reports the failure and the cache stays sound. The full claim is false of the code: a connection closed early, an exception that is not an IOError, or the end of the process leaves a partial file that later calls accept; a refresh that fails loses the copy."
  },
  {
   "property": "C50",
   "status": "partial",
   "theorems": [
    "Verif.Progress.C50_width_partial",
    "Verif.Progress.C50_color_width_partial",
    "Verif.Progress.C50_narrow",
    "Verif.Progress.C50_nonneg_partial",
    "Verif.Progress.C50_steps",
    "Verif.Progress.C50_negative_step",
    "Verif.Progress.C50_growth",
    "Verif.Progress.C50_plus_width_partial",
    "Verif.Progress.C50_plus_time",
    "Verif.Progress.C50_down_width_partial"
   ],
   "note": "With binary64 rounding: ProgressBar is exactly span wide for every amount from 0 to the maximum, plain or coloured, for spans of at least 9 (2 without percentage) up to 2^53; narrower spans are exceeded (C50_narrow), and the timing and download bars are nine wider than asked for. Steps by non-negative amounts keep the amount at or above zero; a negative increment can pass zero (C50_negative_step). Not covered: marks of several characters, amounts beyond the maximum, float amounts."
  },
  {
   "property": "C51",
   "status": "partial",
   "theorems": [
    "Verif.Parser.C51_ints",
    "Verif.Parser.C51_ints_any",
    "Verif.Parser.C51_refused",
    "Verif.Parser.C51_backwards",
    "Verif.Parser.C51_words",
    "Verif.Parser.C51_baselines",
    "Verif.Parser.C51_hosts_list",
    "Verif.Parser.C51_host_zeros",
    "Verif.Parser.C51_host_bytes",
    "Verif.Parser.C51_time_mpm",
    "Verif.Parser.C51_time_partial",
    "Verif.Parser.C51_time_text",
    "Verif.Parser.C51_fraction",
    "Verif.Parser.C51_time_end",
    "Verif.Parser.C51_mpm_partial"
   ],
   "note": "Lists of integers, pairs and hosts give exactly what is written, in order (every list); for any accepted text the numbers are those written and a refused text has a bad piece. Times: with binary64 division every number of milliseconds gives its time of day, and accepted times are valid except 86400000..86400999 ms, which the code accepts (C51_time_end). Not modelled: date and mjd arguments, ephem angles, non-ASCII digits."
  },
  {
   "property": "C52",
   "status": "partial",
   "theorems": [
    "Verif.Color.C52_display_partial",
    "Verif.Color.C52_uncolor_partial",
    "Verif.Color.C52_eleven",
    "Verif.Color.C52_hang",
    "Verif.Color.C52_hang_text",
    "Verif.Color.C52_backslash",
    "Verif.Color.C52_newline",
    "Verif.Color.C52_braces",
    "Verif.Color.C52_not_idempotent"
   ],
   "note": "For every document of at most ten levels, any number of tags, the terminal shows the text in the styles of the enclosing tags and uncolorfy gives the text back. False in general: deeper nesting damages the text or never ends, backslashes are read as escapes, a line end inside a tag stops the tag being found, uncolorfy is not idempotent on arbitrary text."
  },
  {
   "property": "C53",
   "status": "partial",
   "theorems": [
    "Verif.Drx.C53_open_partial",
    "Verif.Drx.C53_open_fails"
   ],
   "note": "false as stated: a file of exactly 255 frames cannot be opened (negation proved); proved when the gap-check frame exists"
  },
  {
   "property": "C54",
   "status": "partial",
   "theorems": [
    "Verif.Buffer.C54_drx_sorted_partial",
    "Verif.Buffer.C54_cor_not_sorted"
   ],
   "note": "proved for DRX/DRX8 ids; false for stand pairs (negation proved)"
  },
  {
   "property": "C55",
   "status": "partial",
   "theorems": [
    "Verif.Timestamp.C55_pulsar_exact",
    "Verif.Timestamp.C55_pulsar_range_partial",
    "Verif.Timestamp.C55_midnight"
   ],
   "note": "exactness proved for all; the second count is 86400 in the first second of each UTC day (witness proved), in range otherwise"
  },
  {
   "property": "C56",
   "status": "partial",
   "theorems": [
    "Verif.Vdif.C56_complex_in_bounds_iff",
    "Verif.Vdif.C56_float_safe_partial",
    "Verif.Vdif.C56_int8_out_of_bounds"
   ],
   "note": "false for the integer reader with complex data (proved for every non-empty frame); proved for the float reader"
  },
  {
   "property": "C57",
   "status": "partial",
   "theorems": [
    "Verif.Vdif.C57_epoch",
    "Verif.Vdif.C57_wraps",
    "Verif.Vdif.C57_grid_partial",
    "Verif.Vdif.C57_overflow"
   ],
   "note": "the frame number can equal the frames per second (witness) and the epoch wraps in 2032 (proved); proved on the frame grid for 2000-2031"
  },
  {
   "property": "C58",
   "status": "proved",
   "theorems": [
    "Verif.Uvw.C58_on_track",
    "Verif.Uvw.C58_ellipse",
    "Verif.Uvw.C58_ends"
   ],
   "note": "floats idealised to reals"
  },
  {
   "property": "C59",
   "status": "proved",
   "theorems": [
    "Verif.Config.C59_saves_iff"
   ],
   "note": ""
  },
  {
   "property": "C60",
   "status": "partial",
   "theorems": [
    "Verif.Telemetry.C60_kept",
    "Verif.Telemetry.C60_sent_partial",
    "Verif.Telemetry.C60_unreadable_removed"
   ],
   "note": "false for unreadable files, removed without being sent"
  },
  {
   "property": "C61",
   "status": "partial",
   "theorems": [
    "Verif.Astro.C61_to_zone_partial",
    "Verif.Astro.C61_to_zone_late",
    "Verif.Astro.C61_roundtrip"
   ],
   "note": "Exact except in the last half millisecond of each second, where the result is one second late (two after the round trip); both proved for all dates."
  },
  {
   "property": "C62",
   "status": "partial",
   "theorems": [
    "Verif.MathUtils.C62_negative_term",
    "Verif.MathUtils.C62_full_pair",
    "Verif.MathUtils.C62_pair_partial",
    "Verif.MathUtils.C62_pair_witness",
    "Verif.MathUtils.C62_scale",
    "Verif.MathUtils.C62_scale_witness"
   ],
   "note": "False of the code: the mirrored modes are added with the wrong conjugate and the two fits differ by the cell size; the exact condition of agreement is proved."
  },
  {
   "property": "C63",
   "status": "partial",
   "theorems": [
    "Verif.MathUtils.C63_length_partial",
    "Verif.MathUtils.C63_length_equal",
    "Verif.MathUtils.C63_inner",
    "Verif.MathUtils.C63_constant",
    "Verif.MathUtils.C63_line_witness",
    "Verif.MathUtils.C63_length_witness"
   ],
   "note": "False for a signal exactly as long as the window (one sample lost, proved for all); the rest holds."
  },
  {
   "property": "C64",
   "status": "partial",
   "theorems": [
    "Verif.ObsFile.C64_session_read",
    "Verif.ObsFile.C64_session_cut",
    "Verif.ObsFile.C64_records_then",
    "Verif.ObsFile.C64_script_partial",
    "Verif.ObsFile.C64_script_cut_between",
    "Verif.ObsFile.C64_script_cut_inside",
    "Verif.ObsFile.C64_script_cut_data",
    "Verif.ObsFile.C64_script_bad_length",
    "Verif.ObsFile.C64_script_refused"
   ],
   "note": "Reading back is proved (data up to the first zero byte); that damage is reported is false of the code."
  },
  {
   "property": "C65",
   "status": "proved",
   "theorems": [
    "Verif.ObsFile.C65_layout",
    "Verif.ObsFile.C65_tight"
   ],
   "note": "for element sizes up to 8, the packing; parsing of the declaration text is not modelled"
  },
  {
   "property": "C66",
   "status": "partial",
   "theorems": [
    "Verif.TarPath.C66_pick_partial",
    "Verif.TarPath.C66_pick_none"
   ],
   "note": "False without a matching member: the last member is used."
  },
  {
   "property": "C67",
   "status": "partial",
   "theorems": [
    "Verif.TarPath.C67_other_partial",
    "Verif.TarPath.C67_stale",
    "Verif.TarPath.C67_stale_witness"
   ],
   "note": "False for the tarball opened last."
  },
  {
   "property": "C68",
   "status": "partial",
   "theorems": [
    "Verif.AspMode.C68_settings_partial",
    "Verif.AspMode.C68_zero_witness",
    "Verif.AspMode.C68_short_witness"
   ],
   "note": "Proved for antenna numbers from 1 on; index 0 sets the last antenna."
  },
  {
   "property": "C69",
   "status": "proved",
   "theorems": [
    "Verif.Parser.C69_order",
    "Verif.Parser.C69_plain"
   ],
   "note": "For every number parser and unit converter (parameters): a range is ordered and made of the values of its two ends, the start taking the units of the stop when it has none."
  },
  {
   "property": "C70",
   "status": "partial",
   "theorems": [
    "Verif.UvTable.C70_read_back_partial",
    "Verif.UvTable.C70_no_more",
    "Verif.UvTable.C70_sorted",
    "Verif.UvTable.C70_stokes",
    "Verif.UvTable.C70_stands_partial",
    "Verif.UvTable.C70_geometry",
    "Verif.UvTable.C70_baseline",
    "Verif.UvTable.C70_not_reordered",
    "Verif.UvTable.C70_not_gaps",
    "Verif.UvTable.C70_not_stands",
    "Verif.UvTable.C70_not_wide",
    "Verif.UvTable.C70_not_simultaneous",
    "Verif.UvTable.C70_not_weights"
   ],
   "note": "Holds for stands of at most three digits, neighbouring products, different times and integrations that list equally many baselines in the same order; the C70_not_ theorems show the code failing for the others. Times are exact and uvw, sources and frequencies are not modelled."
  },
  {
   "property": "C71",
   "status": "partial",
   "theorems": [
    "Verif.VisData.C71_uv_range",
    "Verif.VisData.C71_antennas",
    "Verif.VisData.C71_stands",
    "Verif.VisData.C71_reorder",
    "Verif.VisData.C71_reorder_refused",
    "Verif.VisData.C71_sort",
    "Verif.VisData.C71_sort_lex_partial",
    "Verif.VisData.C71_sort_again",
    "Verif.VisData.C71_copy",
    "Verif.VisData.C71_append",
    "Verif.VisData.C71_times",
    "Verif.VisData.C71_append_alike",
    "Verif.VisData.C71_many_partial",
    "Verif.VisData.C71_sort_many",
    "Verif.VisData.C71_not_lex",
    "Verif.VisData.C71_not_many",
    "Verif.VisData.C71_not_stands",
    "Verif.VisData.C71_not_extend",
    "Verif.VisData.C71_not_alike",
    "Verif.VisData.C71_add_shape",
    "Verif.VisData.C71_not_add"
   ],
   "note": "Proved for single integrations; many integrations are cut as stated only when all keep equally many baselines. The C71_not_ theorems give the failures: append to a product, stand numbers for many integrations, extend, and arrays of 4096 or more antennas. Aliasing is not modelled."
  },
  {
   "property": "C72",
   "status": "proved",
   "theorems": [
    "Verif.VisData.C72_linear_back",
    "Verif.VisData.C72_stokes_back",
    "Verif.VisData.C72_circular",
    "Verif.VisData.C72_values",
    "Verif.VisData.C72_refused",
    "Verif.VisData.C72_not_total",
    "Verif.VisData.C72_not_weights"
   ],
   "note": "Exact complex arithmetic. Weights come back averaged and flags combined (C72_linear_back); circular products are twice as large in total as linear ones (C72_not_total)."
  },
  {
   "property": "C73",
   "status": "partial",
   "theorems": [
    "Verif.FEngine.C73_no_race",
    "Verif.FEngine.C73_value_partial",
    "Verif.FEngine.C73_short_partial",
    "Verif.FEngine.C73_taps",
    "Verif.FEngine.C73_rest",
    "Verif.FEngine.C73_phase",
    "Verif.FEngine.C73_wave",
    "Verif.FEngine.C73_axis",
    "Verif.FEngine.C73_bin",
    "Verif.FEngine.C73_not_inside",
    "Verif.FEngine.C73_not_many",
    "Verif.FEngine.C73_not_own",
    "Verif.FEngine.C73_not_full"
   ],
   "note": "Holds when the overlap divides the transform length and the data are long enough (C73_value_partial) or too short for any window (C73_short_partial); C73_not_inside shows that the first condition is needed. Exact arithmetic; FFTW is taken to give the discrete Fourier transform."
  },
  {
   "property": "C74",
   "status": "partial",
   "theorems": [
    "Verif.XEngine.C74_baselines",
    "Verif.XEngine.C74_two",
    "Verif.XEngine.C74_linear",
    "Verif.XEngine.C74_swap",
    "Verif.XEngine.C74_auto",
    "Verif.XEngine.C74_chain",
    "Verif.XEngine.C74_stokes_cells",
    "Verif.XEngine.C74_stokes_partial",
    "Verif.XEngine.C74_not_phase",
    "Verif.XEngine.C74_not_uv",
    "Verif.XEngine.C74_not_count",
    "Verif.XEngine.C74_not_number"
   ],
   "note": "Holds for XEngine2 and XEngine3 of core.cpp (C74_two, C74_linear). In stokes.cpp only I and Q without flagged windows and autocorrelations are right (C74_stokes_partial); C74_not_phase holds for all inputs."
  },
  {
   "property": "C75",
   "status": "partial",
   "theorems": [
    "Verif.PSD.C75_value_partial",
    "Verif.PSD.C75_not_odd",
    "Verif.PSD.C75_not_many",
    "Verif.PSD.C75_energy",
    "Verif.PSD.C75_cross",
    "Verif.PSD.C75_polarized",
    "Verif.PSD.C75_power",
    "Verif.PSD.C75_not_number",
    "Verif.PSD.C75_not_inside",
    "Verif.PSD.C75_not_inside_real"
   ],
   "note": "Proved for overlaps that divide the transform length and real data or an even number of channels (C75_value_partial); C75_not_odd shows that for complex data with an odd number of channels memory beyond the array is read whatever the data. Exact arithmetic; FFTW is taken to give the discrete Fourier transform."
  },
  {
   "property": "C76",
   "status": "partial",
   "theorems": [
    "Verif.FX.C76_pols",
    "Verif.FX.C76_not_mixed",
    "Verif.FX.C76_reference",
    "Verif.FX.C76_delays",
    "Verif.FX.C76_delays_exist",
    "Verif.FX.C76_shift",
    "Verif.FX.C76_fx_partial",
    "Verif.FX.C76_x_partial",
    "Verif.FX.C76_fx_stokes_partial",
    "Verif.FX.C76_not_gain",
    "Verif.FX.C76_x_stokes_partial",
    "Verif.FX.C76_turn",
    "Verif.FX.C76_turn_stokes_partial",
    "Verif.FX.C76_not_order",
    "Verif.FX.C76_not_twice",
    "Verif.FX.C76_not_fewer",
    "Verif.FX.C76_not_windows",
    "Verif.FX.C76_not_power",
    "Verif.FX.C76_not_uv"
   ],
   "note": "Proved when both polarizations have the same stands in the same order and the F engine finds the same number of windows for both (C76_fx_partial, C76_x_partial, C76_fx_stokes_partial, C76_x_stokes_partial); the negations show that each condition is needed, that FXStokes corrects the gains of four baselines only, and that XStokes rotates with the wrong delays. Delays and polarization strings are proved without conditions. What the engines compute for one pair is a parameter here."
  },
  {
   "property": "C77",
   "status": "partial",
   "theorems": [
    "Verif.Beam.C77_engine",
    "Verif.Beam.C77_bengine_partial",
    "Verif.Beam.C77_not_pairs",
    "Verif.Beam.C77_not_dimensions",
    "Verif.Beam.C77_agree",
    "Verif.Beam.C77_least",
    "Verif.Beam.C77_delay",
    "Verif.Beam.C77_ranges",
    "Verif.Beam.C77_not_outriggers",
    "Verif.Beam.C77_coherent_partial",
    "Verif.Beam.C77_not_which",
    "Verif.Beam.C77_circularize",
    "Verif.Turn.C77_turn",
    "Verif.Turn.C77_mean"
   ],
   "note": "The engine is proved for all sizes (C77_engine). From python the theorems ask for three dimensions, or pairs of bytes (C77_bengine_partial, C77_coherent_partial); C77_not_pairs and C77_not_dimensions show what happens otherwise. Arithmetic is exact; the einsum fallback and the beam shape simulation are not modelled."
  },
  {
   "property": "C78",
   "status": "partial",
   "theorems": [
    "Verif.Gridder.C78_planes",
    "Verif.Gridder.C78_cover",
    "Verif.Gridder.C78_width",
    "Verif.Gridder.C78_not_single",
    "Verif.Gridder.C78_not_many",
    "Verif.Gridder.C78_grid",
    "Verif.Gridder.C78_mass",
    "Verif.Gridder.C78_support",
    "Verif.Gridder.C78_kernel",
    "Verif.Gridder.C78_even",
    "Verif.Gridder.C78_wprojection_partial",
    "Verif.Gridder.C78_total",
    "Verif.Gridder.C78_not_static",
    "Verif.Gridder.C78_correction",
    "Verif.Gridder.C78_not_odd",
    "Verif.Gridder.C78_not_small",
    "Verif.Gridder.C78_not_far",
    "Verif.Turn.C78_turn",
    "Verif.Turn.C78_norm",
    "Verif.Turn.C78_not_centered"
   ],
   "note": "The result is proved for two to 1024 planes, a plane of four cells or more, and baselines shorter than the plane (C78_wprojection_partial, C78_grid); C78_not_single, C78_not_many, C78_not_small and C78_not_far show what happens otherwise. Arithmetic is exact, the values of the Kaiser Bessel kernel are any numbers, FFTW is the sum that defines it, and threads are run one after another."
  },
  {
   "property": "C79",
   "status": "partial",
   "theorems": [
    "Verif.Imaging.C79_points",
    "Verif.Imaging.C79_width",
    "Verif.Imaging.C79_image_partial",
    "Verif.Imaging.C79_total_partial",
    "Verif.Imaging.C79_not_flat",
    "Verif.Imaging.C79_hermitian",
    "Verif.Imaging.C79_real",
    "Verif.Imaging.C79_not_weighted",
    "Verif.Imaging.C79_not_masked",
    "Verif.Imaging.C79_not_all",
    "Verif.Imaging.C79_not_half",
    "Verif.Imaging.C79_natural",
    "Verif.Imaging.C79_uniform",
    "Verif.Imaging.C79_not_pure",
    "Verif.Imaging.C79_not_repeatable",
    "Verif.Imaging.C79_not_beam",
    "Verif.Imaging.C79_not_order",
    "Verif.Imaging.C79_briggs",
    "Verif.Imaging.C79_robust",
    "Verif.Imaging.C79_robust_pos",
    "Verif.Imaging.C79_centre",
    "Verif.Imaging.C79_unshift",
    "Verif.Imaging.C79_not_unshift",
    "Verif.Imaging.C79_not_posn",
    "Verif.Turn.C79_conj",
    "Verif.Turn.C79_turn",
    "Verif.Turn.C79_pixel"
   ],
   "note": "The sum over all points is proved for phase one (C79_total_partial) and the image for any phases plane by plane (C79_image_partial), where the gridder does not fault; C79_not_flat shows when it does. Hermitian symmetry needs coordinates that are not half way between cells (C79_not_half). Several data sets are not combined (C79_not_all). Arithmetic is exact, aipy is taken from its documentation, the taper is any list of factors."
  },
  {
   "property": "C80",
   "status": "partial",
   "theorems": [
    "Verif.MeasSet.C80_read_back_partial",
    "Verif.MeasSet.C80_no_more",
    "Verif.MeasSet.C80_sorted",
    "Verif.MeasSet.C80_not_windows",
    "Verif.MeasSet.C80_position",
    "Verif.MeasSet.C80_not_reordered",
    "Verif.MeasSet.C80_not_count",
    "Verif.MeasSet.C80_not_zenith",
    "Verif.MeasSet.C80_not_time",
    "Verif.MeasSet.C80_not_position",
    "Verif.MeasUvw.C80_uvw",
    "Verif.MeasUvw.C80_uvw_swap"
   ],
   "note": "Reading back is proved for one or two windows, one list of baselines and names that tell sources apart; C80_not_windows, C80_not_reordered, C80_not_count and C80_not_zenith show that it fails otherwise. Frequencies, directions of sources, weights and time scales are not modelled."
  },
  {
   "property": "C81",
   "status": "partial",
   "theorems": [
    "Verif.SimFast.C81_simulated_partial",
    "Verif.SimFast.C81_access",
    "Verif.SimFast.C81_not_channel",
    "Verif.SimFast.C81_not_antenna",
    "Verif.SimFast.C81_range",
    "Verif.SimFast.C81_refused",
    "Verif.SimFast.C81_centred",
    "Verif.SimFast.C81_additive",
    "Verif.SimFast.C81_order",
    "Verif.SimFast.C81_swap",
    "Verif.SimFast.C81_auto",
    "Verif.SimFast.C81_closure",
    "Verif.SimFast.C81_direction",
    "Verif.SimFast.C81_uvw",
    "Verif.SimFast.C81_delay",
    "Verif.SimFast.C81_zenith",
    "Verif.SimFast.C81_rephase",
    "Verif.SimFast.C81_rephase_back",
    "Verif.SimFast.C81_rephase_down",
    "Verif.SimFast.C81_scale",
    "Verif.SimFast.C81_offset",
    "Verif.SimFast.C81_unscale",
    "Verif.SimFast.C81_scale_closure",
    "Verif.SimFast.C81_scale_rows",
    "Verif.SimFast.C81_not_scale_order",
    "Verif.SimFast.C81_fluxes",
    "Verif.SimFast.C81_not_zero_beam",
    "Verif.SimFast.C81_above",
    "Verif.SimFast.C81_antennas",
    "Verif.SimFast.C81_noise",
    "Verif.SimFast.C81_noise_count",
    "Verif.SimFast.C81_not_noise"
   ],
   "note": "Proved over the reals for FastVis, with the Bessel function left open. AIPY is modelled by its formulae and single precision is idealised. Bounds hold only for channels and antennas that exist (C81_not_channel, C81_not_antenna); the negations list where scaling, fluxes and noise fail."
  },
  {
   "property": "C82",
   "status": "partial",
   "theorems": [
    "Verif.Dedisp.C82_delay",
    "Verif.Dedisp.C82_delay_single",
    "Verif.Dedisp.C82_wrap",
    "Verif.Dedisp.C82_fill",
    "Verif.Dedisp.C82_back",
    "Verif.Dedisp.C82_incoherent",
    "Verif.Dedisp.C82_not_single",
    "Verif.Dedisp.C82_columns",
    "Verif.Dedisp.C82_not_fill",
    "Verif.Dedisp.C82_not_fill_negative",
    "Verif.Dedisp.C82_size",
    "Verif.Dedisp.C82_size_doc",
    "Verif.Dedisp.C82_not_size",
    "Verif.Dedisp.C82_size_one",
    "Verif.Dedisp.C82_size_negative",
    "Verif.Dedisp.C82_coherent_partial",
    "Verif.Dedisp.C82_circular",
    "Verif.Dedisp.C82_covered",
    "Verif.Dedisp.C82_all",
    "Verif.Dedisp.C82_not_all",
    "Verif.Dedisp.C82_stream",
    "Verif.Dedisp.C82_stream_end",
    "Verif.Dedisp.C82_shift",
    "Verif.Dedisp.C82_linear",
    "Verif.Dedisp.C82_tone",
    "Verif.Dedisp.C82_group",
    "Verif.Dedisp.C82_chirp",
    "Verif.Dedisp.C82_chirp_centre",
    "Verif.Dedisp.C82_centre",
    "Verif.Dedisp.C82_wings",
    "Verif.Dedisp.C82_not_wings",
    "Verif.Dedisp.C82_cache",
    "Verif.Dedisp.C82_cache_empty",
    "Verif.Dedisp.C82_refused",
    "Verif.Dedisp.C82_not_zero",
    "Verif.Dedisp.C82_before",
    "Verif.Dedisp.C82_not_one",
    "Verif.Dedisp.C82_turn",
    "Verif.Dedisp.C82_recovered"
   ],
   "note": "The result as a filter is proved for a response confined to a quarter of the window (C82_coherent_partial), as circular convolution for any (C82_circular), and for waves of the frequencies of the window exactly (C82_recovered). Numbers are exact, the taper is not modelled. The negations show where it fails."
  },
  {
   "property": "C83",
   "status": "proved",
   "theorems": [
    "Verif.FilterBank.C83_symmetric",
    "Verif.FilterBank.C83_bank",
    "Verif.FilterBank.C83_every",
    "Verif.FilterBank.C83_linear",
    "Verif.FilterBank.C83_short",
    "Verif.FilterBank.C83_not_short",
    "Verif.FilterBank.C83_no_taps",
    "Verif.FilterBank.C83_zeros",
    "Verif.FilterBank.C83_real",
    "Verif.FilterBank.C83_not_plain"
   ],
   "note": "Numbers are exact. A signal of one sample is broadcast instead of refused (C83_not_short), and one tap is not a plain transform (C83_not_plain)."
  },
  {
   "property": "C84",
   "status": "proved",
   "theorems": [
    "Verif.Stats.C84_narrowest",
    "Verif.Stats.C84_narrowest_odd",
    "Verif.Stats.C84_not_last",
    "Verif.Stats.C84_stuck_iff",
    "Verif.Stats.C84_mode_between",
    "Verif.Stats.C84_mode_perm",
    "Verif.Stats.C84_mode_affine",
    "Verif.Stats.C84_not_mirror",
    "Verif.Stats.C84_not_three",
    "Verif.Stats.C84_not_constant",
    "Verif.Stats.C84_not_majority",
    "Verif.Stats.C84_mode_distinct",
    "Verif.Stats.C84_mode_empty",
    "Verif.Stats.C84_runs",
    "Verif.Stats.C84_runs_exist",
    "Verif.Stats.C84_counts",
    "Verif.Stats.C84_not_empty",
    "Verif.Stats.C84_not_two",
    "Verif.Stats.C84_flip",
    "Verif.Stats.C84_moments_flip",
    "Verif.Stats.C84_reverse",
    "Verif.Stats.C84_bound",
    "Verif.Stats.C84_not_one_sign",
    "Verif.Stats.C84_excess",
    "Verif.Stats.C84_excess_many",
    "Verif.Stats.C84_not_centred",
    "Verif.Stats.C84_arrangements",
    "Verif.Stats.C84_arrangements_nodup",
    "Verif.Stats.C84_choose",
    "Verif.Stats.C84_mean",
    "Verif.Stats.C84_variance"
   ],
   "note": "Exact numbers. Repeated values can raise and the last half sample of an even number is missed (C84_not_...). The normal probability at the end is not modelled."
  },
  {
   "property": "C85",
   "status": "proved",
   "theorems": [
    "Verif.Kurtosis.C85_mean",
    "Verif.Kurtosis.C85_var",
    "Verif.Kurtosis.C85_skew",
    "Verif.Kurtosis.C85_beta",
    "Verif.Kurtosis.C85_pearson_mean",
    "Verif.Kurtosis.C85_pearson_var",
    "Verif.Kurtosis.C85_pearson_third",
    "Verif.Kurtosis.C85_alpha",
    "Verif.Kurtosis.C85_limits",
    "Verif.Kurtosis.C85_scale",
    "Verif.Kurtosis.C85_perm",
    "Verif.Kurtosis.C85_spread",
    "Verif.Kurtosis.C85_nonneg",
    "Verif.Kurtosis.C85_constant",
    "Verif.Kurtosis.C85_upper",
    "Verif.Kurtosis.C85_burst",
    "Verif.Kurtosis.C85_not_axis",
    "Verif.Kurtosis.C85_restored",
    "Verif.Kurtosis.C85_not_restored"
   ],
   "note": "Real numbers; the moments of the Dirichlet and Pearson distributions are taken as known formulae in the specification; the inverse distribution function is not modelled. Along the second axis the estimator is wrong (C85_not_axis)."
  },
  {
   "property": "C86",
   "status": "proved",
   "theorems": [
    "Verif.Robust.C86_median_majority",
    "Verif.Robust.C86_median_affine",
    "Verif.Robust.C86_median_perm",
    "Verif.Robust.C86_mean_average",
    "Verif.Robust.C86_mean_between",
    "Verif.Robust.C86_mean_few",
    "Verif.Robust.C86_mean_affine",
    "Verif.Robust.C86_mean_shift",
    "Verif.Robust.C86_mean_perm",
    "Verif.Robust.C86_mean_symmetric",
    "Verif.Robust.C86_mean_majority",
    "Verif.Robust.C86_not_majority",
    "Verif.Robust.C86_mean_constant",
    "Verif.Robust.C86_std_nonneg",
    "Verif.Robust.C86_std_affine",
    "Verif.Robust.C86_std_shift",
    "Verif.Robust.C86_std_mirror",
    "Verif.Robust.C86_std_perm",
    "Verif.Robust.C86_std_constant",
    "Verif.Robust.C86_std_two",
    "Verif.Robust.C86_biweight_between",
    "Verif.Robust.C86_biweight_shift",
    "Verif.Robust.C86_biweight_constant",
    "Verif.Robust.C86_not_biweight_few"
   ],
   "note": "Real numbers. A majority of equal values keeps outliers (C86_not_majority); biweight_mean fails on one or two values (C86_not_biweight_few). Changes of unit are for spreads that stay on the same side of the smallest number."
  },
  {
   "property": "C87",
   "status": "partial",
   "theorems": [
    "Verif.Robust.C87_weighted",
    "Verif.Robust.C87_plain",
    "Verif.Robust.C87_weights",
    "Verif.Robust.C87_rejected",
    "Verif.Robust.C87_not_bisquare",
    "Verif.Robust.C87_check_exact",
    "Verif.Robust.C87_not_zero",
    "Verif.Robust.C87_line",
    "Verif.Robust.C87_not_single",
    "Verif.Robust.C87_rescale",
    "Verif.Robust.C87_rescale_high",
    "Verif.Robust.C87_not_order_zero",
    "Verif.Robust.C87_exact",
    "Verif.Robust.C87_poly_partial",
    "Verif.Robust.C87_not_mean",
    "Verif.Robust.C87_good",
    "Verif.Robust.C87_move",
    "Verif.Robust.C87_outcome",
    "Verif.Robust.C87_not_segments",
    "Verif.Robust.C87_sizes",
    "Verif.Robust.C87_odd"
   ],
   "note": "Real numbers; linefit for bisector=False; of polyfit the part for fewer than 10000 points up to the first return and the segments of larger ones, with npp_polyfit taken as any fit that is exact when it can be. Order zero loses the mean (C87_not_mean)."
  },
  {
   "property": "C88",
   "status": "proved",
   "theorems": [
    "Verif.RfUtils.C88_units",
    "Verif.RfUtils.C88_dipole",
    "Verif.RfUtils.C88_gain",
    "Verif.RfUtils.C88_decibel",
    "Verif.RfUtils.C88_round",
    "Verif.RfUtils.C88_back",
    "Verif.RfUtils.C88_round_dipole",
    "Verif.RfUtils.C88_sefd",
    "Verif.RfUtils.C88_sefd_same",
    "Verif.RfUtils.C88_sefd_few",
    "Verif.RfUtils.C88_strength",
    "Verif.RfUtils.C88_strength_round",
    "Verif.RfUtils.C88_strength_back",
    "Verif.RfUtils.C88_tenfold",
    "Verif.RfUtils.C88_nothing",
    "Verif.RfUtils.C88_not_exported"
   ],
   "note": "Real numbers in SI units. One name is not exported (C88_not_exported)."
  },
  {
   "property": "C89",
   "status": "proved",
   "theorems": [
    "Verif.Scatter.C89_unit",
    "Verif.Scatter.C89_nonneg",
    "Verif.Scatter.C89_causal",
    "Verif.Scatter.C89_thin",
    "Verif.Scatter.C89_thin_some",
    "Verif.Scatter.C89_not_last",
    "Verif.Scatter.C89_peak",
    "Verif.Scatter.C89_explains",
    "Verif.Scatter.C89_profile",
    "Verif.Scatter.C89_flux",
    "Verif.Scatter.C89_components",
    "Verif.Scatter.C89_ends",
    "Verif.Scatter.C89_thin_ends",
    "Verif.Scatter.C89_positivity",
    "Verif.Scatter.C89_skewness_shift",
    "Verif.Scatter.C89_skewness_mirror",
    "Verif.Scatter.C89_not_skewness",
    "Verif.Scatter.C89_best",
    "Verif.Scatter.C89_restore_add",
    "Verif.Scatter.C89_restored",
    "Verif.Scatter.C89_not_restored"
   ],
   "note": "Real numbers; the robust deviation is a given number and the sum in the figure of merit is not put together. Times from zero move the restored profile (C89_not_restored); the skewness is not normalised (C89_not_skewness)."
  },
  {
   "property": "C90",
   "status": "proved",
   "theorems": [
    "Verif.SelfCal.C90_scale",
    "Verif.SelfCal.C90_row",
    "Verif.SelfCal.C90_not_auto",
    "Verif.SelfCal.C90_amp_row",
    "Verif.SelfCal.C90_fit_phase",
    "Verif.SelfCal.C90_fit_delay",
    "Verif.SelfCal.C90_fit_gain",
    "Verif.SelfCal.C90_phase",
    "Verif.SelfCal.C90_converges",
    "Verif.SelfCal.C90_exact",
    "Verif.SelfCal.C90_delay",
    "Verif.SelfCal.C90_not_amplitude",
    "Verif.SelfCal.C90_not_cutoff",
    "Verif.SelfCal.C90_not_gain",
    "Verif.SelfCal.C90_fixed",
    "Verif.SelfCal.C90_stop",
    "Verif.SelfCal.C90_wrap",
    "Verif.SelfCal.C90_data",
    "Verif.SelfCal.C90_ref"
   ],
   "note": "Real and complex numbers; least squares are assumed to solve what can be solved. It does not hold with amplitudes (C90_not_amplitude) and for autocorrelations (C90_not_auto)."
  },
  {
   "property": "C91",
   "status": "partial",
   "theorems": [
    "Verif.Deconv.C91_inside",
    "Verif.Deconv.C91_exact",
    "Verif.Deconv.C91_pixel",
    "Verif.Deconv.C91_between",
    "Verif.Deconv.C91_not_angle",
    "Verif.Deconv.C91_peak",
    "Verif.Deconv.C91_deposit_partial",
    "Verif.Deconv.C91_flux_partial",
    "Verif.Deconv.C91_not_last",
    "Verif.Deconv.C91_not_outside",
    "Verif.Deconv.C91_not_border",
    "Verif.Deconv.C91_lookup",
    "Verif.Deconv.C91_pass",
    "Verif.Deconv.C91_loop",
    "Verif.Deconv.C91_sources",
    "Verif.Deconv.C91_clean_flux",
    "Verif.Deconv.C91_end",
    "Verif.Deconv.C91_peak_part",
    "Verif.Deconv.C91_restore",
    "Verif.Deconv.C91_not_dark",
    "Verif.Deconv.C91_rolled",
    "Verif.Deconv.C91_minor",
    "Verif.Deconv.C91_minor_point",
    "Verif.Deconv.C91_lsq_nonneg",
    "Verif.Deconv.C91_lsq_rms",
    "Verif.Deconv.C91_lsq_ends",
    "Verif.Deconv.C91_lsq_fixed",
    "Verif.Deconv.C91_lsq_step",
    "Verif.Deconv.C91_not_restored",
    "Verif.Deconv.C91_not_nothing",
    "Verif.Deconv.C91_lsq_first"
   ],
   "note": "Real numbers and square images; fits, beams and deviations are given. Flux is not kept at the borders (C91_not_outside, C91_not_last raises) and lsq does not return the model of its residuals (C91_not_restored)."
  },
  {
   "property": "C92",
   "status": "partial",
   "theorems": [
    "Verif.Analysis.C92_tiles",
    "Verif.Analysis.C92_one",
    "Verif.Analysis.C92_not_overlap",
    "Verif.Analysis.C92_not_middle",
    "Verif.Analysis.C92_clipped",
    "Verif.Analysis.C92_level_none",
    "Verif.Analysis.C92_narrower",
    "Verif.Analysis.C92_level",
    "Verif.Analysis.C92_level_unit",
    "Verif.Analysis.C92_fill",
    "Verif.Analysis.C92_fill_between",
    "Verif.Analysis.C92_fill_none",
    "Verif.Analysis.C92_not_flat",
    "Verif.Analysis.C92_majority",
    "Verif.Analysis.C92_not_corner",
    "Verif.Analysis.C92_not_row",
    "Verif.Analysis.C92_filter_flat",
    "Verif.Analysis.C92_unit",
    "Verif.Analysis.C92_kern",
    "Verif.Analysis.C92_kernel",
    "Verif.Analysis.C92_conv_between",
    "Verif.Analysis.C92_smooth_none",
    "Verif.Analysis.C92_smooth",
    "Verif.Analysis.C92_peaks",
    "Verif.Analysis.C92_find_partial",
    "Verif.Analysis.C92_apart",
    "Verif.Analysis.C92_limits",
    "Verif.Analysis.C92_one_peak",
    "Verif.Analysis.C92_point",
    "Verif.Analysis.C92_not_background",
    "Verif.Analysis.C92_not_centre",
    "Verif.Analysis.C92_default",
    "Verif.Analysis.C92_not_apart",
    "Verif.Analysis.C92_not_threshold",
    "Verif.Analysis.C92_find_unit"
   ],
   "note": "Real numbers; the bicubic spline through the levels is not modelled, find_point_sources takes any background. A peak is reported once only if no pixel around equals it (C92_not_apart), and find may raise (C92_not_threshold)."
  },
  {
   "property": "C93",
   "status": "partial",
   "theorems": [
    "Verif.SkyMap.C93_range",
    "Verif.SkyMap.C93_line",
    "Verif.SkyMap.C93_node",
    "Verif.SkyMap.C93_power_law",
    "Verif.SkyMap.C93_mix",
    "Verif.SkyMap.C93_load",
    "Verif.SkyMap.C93_columns",
    "Verif.SkyMap.C93_site",
    "Verif.SkyMap.C93_cosines",
    "Verif.SkyMap.C93_visible",
    "Verif.SkyMap.C93_not_mean",
    "Verif.SkyMap.C93_not_sphere",
    "Verif.SkyMap.C93_radians",
    "Verif.SkyMap.C93_azimuth",
    "Verif.SkyMap.C93_sources_partial",
    "Verif.SkyMap.C93_not_restored",
    "Verif.SkyMap.C93_label"
   ],
   "note": "Real numbers; cubic interpolation, coordinate transforms and projections are given. The date is put back only if no source raises (C93_not_restored); normalised power is pi squared too large (C93_not_mean)."
  },
  {
   "property": "C94",
   "status": "partial",
   "theorems": [
    "Verif.Idf.C94_round_trip_partial",
    "Verif.Idf.C94_order",
    "Verif.Idf.C94_exact",
    "Verif.Idf.C94_not_mixed",
    "Verif.Idf.C94_not_gain",
    "Verif.Idf.C94_user",
    "Verif.Idf.C94_not_comments",
    "Verif.Idf.C94_not_reset",
    "Verif.Idf.C94_not_readable",
    "Verif.Idf.C94_not_alternate",
    "Verif.Idf.C94_not_range",
    "Verif.Idf.C94_not_user",
    "Verif.Idf.C94_not_office",
    "Verif.Idf.C94_not_target",
    "Verif.Idf.C94_day",
    "Verif.Idf.C94_parts",
    "Verif.Idf.C94_limits",
    "Verif.Idf.C94_none"
   ],
   "note": "One run per project. Settings that are not written are those of earlier scans (C94_not_reset and others), so that the round trip is exact only for uniform settings. Texts of starts, sizes and bandwidths are given."
  },
  {
   "property": "C95",
   "status": "partial",
   "theorems": [
    "Verif.Idf.Check.C95_visible",
    "Verif.Idf.Check.C95_not_sampled",
    "Verif.Idf.Check.C95_scan_partial",
    "Verif.Idf.Check.C95_higher",
    "Verif.Idf.Check.C95_not_refused",
    "Verif.Idf.Check.C95_run",
    "Verif.Idf.Check.C95_project",
    "Verif.Idf.Check.C95_alternates",
    "Verif.Idf.Check.C95_stations",
    "Verif.Idf.Check.C95_observations",
    "Verif.Idf.Check.C95_complete",
    "Verif.Idf.Check.C95_observable",
    "Verif.Idf.Check.C95_still",
    "Verif.Idf.Check.C95_not_silent",
    "Verif.Idf.Check.C95_not_fresh",
    "Verif.Idf.Check.C95_not_empty",
    "Verif.Idf.Check.C95_not_asp",
    "Verif.Idf.Check.C95_not_past"
   ],
   "note": "The sky, separations, cosines and texts of dates are given. Without any frequency a scan with alternate phase centers raises (C95_not_refused); visibility is only sampled (C95_not_sampled); generate_sdfs raises for some valid projects (C95_not_empty, C95_not_silent, C95_not_fresh, C95_not_past)."
  },
  {
   "property": "C96",
   "status": "partial",
   "theorems": [
    "Verif.SdfUtils.C96_pattern",
    "Verif.SdfUtils.C96_not_separator",
    "Verif.SdfUtils.C96_millis",
    "Verif.SdfUtils.C96_months",
    "Verif.SdfUtils.C96_names",
    "Verif.SdfUtils.C96_shift",
    "Verif.SdfUtils.C96_utc",
    "Verif.SdfUtils.C96_zone",
    "Verif.SdfUtils.C96_lst_text",
    "Verif.SdfUtils.C96_fields",
    "Verif.SdfUtils.C96_not_rounded",
    "Verif.SdfUtils.C96_text",
    "Verif.SdfUtils.C96_start",
    "Verif.SdfUtils.C96_aware",
    "Verif.SdfUtils.C96_not_aware",
    "Verif.SdfUtils.C96_not_astropy",
    "Verif.SdfUtils.C96_not_summer",
    "Verif.SdfUtils.C96_not_shift",
    "Verif.SdfUtils.C96_not_sidereal",
    "Verif.SdfUtils.C96_hours",
    "Verif.SdfUtils.C96_lst_partial",
    "Verif.SdfUtils.C96_not_hour",
    "Verif.SdfUtils.C96_not_lst",
    "Verif.SdfUtils.C96_size",
    "Verif.SdfUtils.C96_digits",
    "Verif.SdfUtils.C96_not_size",
    "Verif.SdfUtils.C96_width",
    "Verif.SdfUtils.C96_not_width"
   ],
   "note": "Floats are exact; zones and the equation of the equinoxes are given. Fractions that round to a whole second are refused (C96_not_rounded, C96_not_aware, C96_not_lst); shifts with one digit are misread (C96_not_shift); astropy times are refused (C96_not_astropy)."
  },
  {
   "property": "C97",
   "status": "partial",
   "theorems": [
    "Verif.LdpSpec.C97_open",
    "Verif.LdpSpec.C97_none",
    "Verif.LdpSpec.C97_not_single",
    "Verif.LdpSpec.C97_not_sized",
    "Verif.LdpSpec.C97_remaining",
    "Verif.LdpSpec.C97_not_count",
    "Verif.LdpSpec.C97_read",
    "Verif.LdpSpec.C97_end",
    "Verif.LdpSpec.C97_sequence_partial",
    "Verif.LdpSpec.C97_pieces",
    "Verif.LdpSpec.C97_count",
    "Verif.LdpSpec.C97_not_stuck",
    "Verif.LdpSpec.C97_not_resumed",
    "Verif.LdpSpec.C97_not_backwards",
    "Verif.LdpSpec.C97_not_tail",
    "Verif.LdpSpec.C97_close",
    "Verif.LdpSpec.C97_not_gap",
    "Verif.LdpSpec.C97_offset_partial",
    "Verif.LdpSpec.C97_past",
    "Verif.LdpSpec.C97_before",
    "Verif.LdpSpec.C97_not_moved",
    "Verif.LdpSpec.C97_not_found",
    "Verif.LdpSpec.C97_not_first",
    "Verif.LdpSpec.C97_not_kind",
    "Verif.LdpSpec.C97_not_nearest"
   ],
   "note": "Times are exact. For files with damaged frames reading does not end (C97_not_stuck); with gaps it raises for ever (C97_not_resumed) and moving ends elsewhere (C97_not_moved, C97_not_found, C97_not_nearest); files of one frame are not opened (C97_not_single)."
  },
  {
   "property": "C98",
   "status": "partial",
   "theorems": [
    "Verif.LdpGroup.C98_cor_reads_partial",
    "Verif.LdpGroup.C98_baseline_place",
    "Verif.LdpGroup.C98_tbx_reads_partial",
    "Verif.LdpGroup.C98_tbx_pieces_partial",
    "Verif.LdpGroup.C98_tbx_damaged",
    "Verif.LdpGroup.C98_tbx_ends",
    "Verif.LdpGroup.C98_not_cor_ends",
    "Verif.LdpGroup.C98_tbx_request",
    "Verif.LdpGroup.C98_cor_count",
    "Verif.LdpGroup.C98_not_offset_reads",
    "Verif.LdpGroup.C98_not_offset_position",
    "Verif.LdpGroup.C98_not_short_end",
    "Verif.LdpGroup.C98_gap_filled",
    "Verif.LdpGroup.C98_not_gap_filled",
    "Verif.LdpGroup.C98_not_double_step",
    "Verif.LdpGroup.C98_gap_at_partial_end_raises",
    "Verif.LdpGroup.C98_not_twice",
    "Verif.LdpGroup.C98_not_leading_bytes",
    "Verif.LdpGroup.C98_not_sync_ci8",
    "Verif.LdpGroup.C98_not_offset_empty_buffer",
    "Verif.LdpGroup.C98_not_corSkip",
    "Verif.LdpGroup.C98_not_cor_navg29",
    "Verif.LdpGroup.C98_not_cor_fewer_inputs",
    "Verif.LdpGroup.C98_not_offset_witness"
   ],
   "note": "Proved for regular files: COR with missing and late frames (C98_cor_reads_partial), TBX complete (C98_tbx_reads_partial), TBX with missing frames as consecutive pieces (C98_tbx_pieces_partial). False of the code: moving (C98_not_offset_reads, C98_not_offset_position), files ending with less than a step (C98_not_short_end), gaps at other steps than 8192 (C98_not_gap_filled), ending at damaged COR frames (C98_not_cor_ends), some averages (C98_not_cor_navg29)."
  },
  {
   "property": "C99",
   "status": "partial",
   "theorems": [
    "Verif.Ionex.C99_parse_partial",
    "Verif.Ionex.C99_times",
    "Verif.Ionex.C99_distinct",
    "Verif.Ionex.C99_chord",
    "Verif.Ionex.C99_linear",
    "Verif.Ionex.C99_at_map",
    "Verif.Ionex.C99_exact",
    "Verif.Ionex.C99_after_last",
    "Verif.Ionex.C99_no_map",
    "Verif.Ionex.C99_not_hourly",
    "Verif.Ionex.C99_not_ustec",
    "Verif.Ionex.C99_node",
    "Verif.Ionex.C99_between",
    "Verif.Ionex.C99_not_wrap",
    "Verif.Ionex.C99_ustec_square",
    "Verif.Ionex.C99_not_ustec_rms",
    "Verif.Ionex.C99_not_ustec_tall",
    "Verif.Ionex.C99_height",
    "Verif.Ionex.C99_glotec",
    "Verif.Ionex.C99_not_glotec",
    "Verif.Ionex.C99_chosen",
    "Verif.Ionex.C99_not_exponent",
    "Verif.Ionex.C99_not_impossible_day",
    "Verif.Ionex.C99_not_empty"
   ],
   "note": "Proved: reading of files in the format (C99_parse_partial, with tenths as unit), linear interpolation for maps as far apart as the window, and in place. False of the code: maps closer together than the window (C99_not_hourly, by C99_at_map), USTEC times in double precision (C99_not_ustec), uncertainties of USTEC (C99_not_ustec_rms), the GloTEC file of the last half second (C99_not_glotec), impossible dates (C99_not_impossible_day), the exponent (C99_not_exponent), longitudes beyond the edge (C99_not_wrap)."
  }
 ]
}

import Verif.Model.Shipped
/-
GENERATED by tools/readsets.py from the pyRSD source text; do not edit.

For every class of the shipped spectrum models: its parameters, cached properties and interpolated functions,
the parents each of them declares, and the managed attributes that the code computing it can read.
Names beginning with an underscore are written with the underscore at the end.  Each row cites the
definition; `C` is a cached property, `I` an interpolated function, `P` a parameter (with its attribute-valued
default, if any); after the parents come the reads.
-/
namespace Verif.Shipped

namespace A
abbrev linear_power_file : Nat := 0
abbrev params : Nat := 1
abbrev transfer_fit : Nat := 2
abbrev transfer_fit_int : Nat := 3
abbrev cosmo : Nat := 4
abbrev z : Nat := 5
abbrev D : Nat := 6
abbrev fog_model : Nat := 7
abbrev FOG : Nat := 8
abbrev N : Nat := 9
abbrev NcBs : Nat := 10
abbrev Nk : Nat := 11
abbrev NsBsB : Nat := 12
abbrev P00_mu0_loaded : Nat := 13
abbrev loaded_data_ : Nat := 14
abbrev sigma8_z : Nat := 15
abbrev power_norm_ : Nat := 16
abbrev power_lin : Nat := 17
abbrev Imn_ : Nat := 18
abbrev unnormalized_I00_ : Nat := 19
abbrev Jmn_ : Nat := 20
abbrev unnormalized_J00_ : Nat := 21
abbrev hzpt : Nat := 22
abbrev interpolate : Nat := 23
abbrev use_P00_model : Nat := 24
abbrev P00 : Nat := 25
abbrev b1 : Nat := 26
abbrev b1_bar : Nat := 27
abbrev use_mean_bias : Nat := 28
abbrev ib1_ : Nat := 29
abbrev Kmn_ : Nat := 30
abbrev unnormalized_K00_ : Nat := 31
abbrev unnormalized_K00s_ : Nat := 32
abbrev b2_00_a__0 : Nat := 33
abbrev b2_00_a__2 : Nat := 34
abbrev b2_00_a__4 : Nat := 35
abbrev nonlinear_bias_fitter : Nat := 36
abbrev nonlinear_bias_types : Nat := 37
abbrev b2_00_a : Nat := 38
abbrev use_tidal_bias : Nat := 39
abbrev bs : Nat := 40
abbrev kmax : Nat := 41
abbrev kmin : Nat := 42
abbrev k : Nat := 43
abbrev use_Phm_model : Nat := 44
abbrev Phm : Nat := 45
abbrev ib1_bar_ : Nat := 46
abbrev bs_bar : Nat := 47
abbrev Phm_bar : Nat := 48
abbrev P00_ss_no_stoch : Nat := 49
abbrev auto_stochasticity_fits : Nat := 50
abbrev cross_stochasticity_fits : Nat := 51
abbrev stochasticity : Nat := 52
abbrev P00_ss : Nat := 53
abbrev P01_mu2_loaded : Nat := 54
abbrev f : Nat := 55
abbrev max_mu : Nat := 56
abbrev use_P01_model : Nat := 57
abbrev P01 : Nat := 58
abbrev Pdv_loaded : Nat := 59
abbrev Pdv_model_type : Nat := 60
abbrev Pdv_sim_model : Nat := 61
abbrev Pdv_0_ : Nat := 62
abbrev use_Pdv_model : Nat := 63
abbrev Pdv : Nat := 64
abbrev unnormalized_K10_ : Nat := 65
abbrev unnormalized_K10s_ : Nat := 66
abbrev unnormalized_K11_ : Nat := 67
abbrev unnormalized_K11s_ : Nat := 68
abbrev b2_01_a__0 : Nat := 69
abbrev b2_01_a__1 : Nat := 70
abbrev b2_01_a__2 : Nat := 71
abbrev b2_01_a : Nat := 72
abbrev P01_ss : Nat := 73
abbrev unnormalized_I02_ : Nat := 74
abbrev unnormalized_I20_ : Nat := 75
abbrev unnormalized_J02_ : Nat := 76
abbrev unnormalized_J20_ : Nat := 77
abbrev conformalH : Nat := 78
abbrev include_2loop : Nat := 79
abbrev sigma_bv2 : Nat := 80
abbrev sigma_lin_unnormed_ : Nat := 81
abbrev sigma_lin : Nat := 82
abbrev sigma_v : Nat := 83
abbrev P02 : Nat := 84
abbrev unnormalized_K20_a_ : Nat := 85
abbrev unnormalized_K20_b_ : Nat := 86
abbrev unnormalized_K20s_a_ : Nat := 87
abbrev unnormalized_K20s_b_ : Nat := 88
abbrev b2_00_b__0 : Nat := 89
abbrev b2_00_b__2 : Nat := 90
abbrev b2_00_b__4 : Nat := 91
abbrev b2_00_b : Nat := 92
abbrev b2_00_c__0 : Nat := 93
abbrev b2_00_c__2 : Nat := 94
abbrev b2_00_c__4 : Nat := 95
abbrev b2_00_c : Nat := 96
abbrev vel_disp_fitter : Nat := 97
abbrev vel_disp_from_sims : Nat := 98
abbrev sigmav_halo : Nat := 99
abbrev sigmav_halo_bar : Nat := 100
abbrev P02_ss : Nat := 101
abbrev sigma_v2 : Nat := 102
abbrev P03 : Nat := 103
abbrev b2_01_b__0 : Nat := 104
abbrev b2_01_b__1 : Nat := 105
abbrev b2_01_b__2 : Nat := 106
abbrev b2_01_b : Nat := 107
abbrev P03_ss : Nat := 108
abbrev sigma_bv4 : Nat := 109
abbrev P22bar_0_ : Nat := 110
abbrev unnormed_velocity_kurtosis_ : Nat := 111
abbrev velocity_kurtosis : Nat := 112
abbrev P04 : Nat := 113
abbrev b2_00_d__0 : Nat := 114
abbrev b2_00_d__2 : Nat := 115
abbrev b2_00_d__4 : Nat := 116
abbrev b2_00_d : Nat := 117
abbrev P04_ss : Nat := 118
abbrev P11_mu2_loaded : Nat := 119
abbrev P11_mu4_loaded : Nat := 120
abbrev unnormalized_I11_ : Nat := 121
abbrev unnormalized_I13_ : Nat := 122
abbrev unnormalized_I22_ : Nat := 123
abbrev unnormalized_I31_ : Nat := 124
abbrev Imn1Loop_dvdv_ : Nat := 125
abbrev unnormalized_Idvdv_h03_ : Nat := 126
abbrev unnormalized_Idvdv_h04_ : Nat := 127
abbrev Pdd_0_ : Nat := 128
abbrev Pvv_0_ : Nat := 129
abbrev Imn1Loop_vvdd_ : Nat := 130
abbrev unnormalized_Ivvdd_h01_ : Nat := 131
abbrev unnormalized_Ivvdd_h02_ : Nat := 132
abbrev unnormalized_J10_ : Nat := 133
abbrev unnormalized_J11_ : Nat := 134
abbrev use_P11_model : Nat := 135
abbrev P11 : Nat := 136
abbrev P11_sim_model : Nat := 137
abbrev use_Pvv_model : Nat := 138
abbrev Pvv : Nat := 139
abbrev P11_ss : Nat := 140
abbrev unnormalized_I03_ : Nat := 141
abbrev unnormalized_I12_ : Nat := 142
abbrev unnormalized_I21_ : Nat := 143
abbrev unnormalized_I30_ : Nat := 144
abbrev P12 : Nat := 145
abbrev P12_ss : Nat := 146
abbrev P13 : Nat := 147
abbrev P13_ss : Nat := 148
abbrev unnormalized_I23_ : Nat := 149
abbrev unnormalized_I32_ : Nat := 150
abbrev Imn1Loop_vvvv_ : Nat := 151
abbrev unnormalized_Ivvvv_f23_ : Nat := 152
abbrev unnormalized_Ivvvv_f32_ : Nat := 153
abbrev unnormalized_sigmasq_k_ : Nat := 154
abbrev P22 : Nat := 155
abbrev Pdd : Nat := 156
abbrev P22_ss : Nat := 157
abbrev alpha_png : Nat := 158
abbrev delta_crit : Nat := 159
abbrev f_nl : Nat := 160
abbrev p : Nat := 161
abbrev delta_bias : Nat := 162
abbrev btot : Nat := 163
abbrev P_mu0 : Nat := 164
abbrev correct_mu2 : Nat := 165
abbrev Pmu2_correction : Nat := 166
abbrev mu2_model_correction : Nat := 167
abbrev P_mu2 : Nat := 168
abbrev correct_mu4 : Nat := 169
abbrev Pmu4_correction : Nat := 170
abbrev mu4_model_correction : Nat := 171
abbrev P_mu4 : Nat := 172
abbrev P_mu6 : Nat := 173
abbrev unnormalized_I01_ : Nat := 174
abbrev unnormalized_I10_ : Nat := 175
abbrev unnormalized_I33_ : Nat := 176
abbrev unnormalized_Ivvvv_f33_ : Nat := 177
abbrev unnormalized_J01_ : Nat := 178
abbrev unnormalized_K01_ : Nat := 179
abbrev unnormalized_K01s_ : Nat := 180
abbrev unnormalized_K02s_ : Nat := 181
abbrev alpha_drag : Nat := 182
abbrev alpha_par : Nat := 183
abbrev alpha_perp : Nat := 184
abbrev b1_cA : Nat := 185
abbrev b1_cB : Nat := 186
abbrev fcB : Nat := 187
abbrev b1_c : Nat := 188
abbrev b1_sA : Nat := 189
abbrev b1_sB : Nat := 190
abbrev fsB : Nat := 191
abbrev b1_s : Nat := 192
abbrev bias_to_sigma_relation : Nat := 193
abbrev cosmo_filename : Nat := 194
abbrev f_so : Nat := 195
abbrev fiducial_rs_drag : Nat := 196
abbrev fs : Nat := 197
abbrev k0_low : Nat := 198
abbrev power_lin_nw : Nat := 199
abbrev redshift_params : Nat := 200
abbrev sigma_c : Nat := 201
abbrev sigma_fog : Nat := 202
abbrev sigma_s : Nat := 203
abbrev sigma_sA : Nat := 204
abbrev sigma_sB : Nat := 205
abbrev sigma_so : Nat := 206
abbrev use_vlah_biasing : Nat := 207
end A

/-- The number of attribute names. -/
def K : Nat := 208

/-- The names, in the order of their numbers. -/
def names : List String := ["linear_power_file", "params", "transfer_fit", "transfer_fit_int", "cosmo", "z", "D", "fog_model", "FOG", "N", "NcBs", "Nk", "NsBsB", "P00_mu0_loaded", "_loaded_data", "sigma8_z", "_power_norm", "power_lin", "_Imn", "_unnormalized_I00", "_Jmn", "_unnormalized_J00", "hzpt", "interpolate", "use_P00_model", "P00", "b1", "b1_bar", "use_mean_bias", "_ib1", "_Kmn", "_unnormalized_K00", "_unnormalized_K00s", "b2_00_a__0", "b2_00_a__2", "b2_00_a__4", "nonlinear_bias_fitter", "nonlinear_bias_types", "b2_00_a", "use_tidal_bias", "bs", "kmax", "kmin", "k", "use_Phm_model", "Phm", "_ib1_bar", "bs_bar", "Phm_bar", "P00_ss_no_stoch", "auto_stochasticity_fits", "cross_stochasticity_fits", "stochasticity", "P00_ss", "P01_mu2_loaded", "f", "max_mu", "use_P01_model", "P01", "Pdv_loaded", "Pdv_model_type", "Pdv_sim_model", "_Pdv_0", "use_Pdv_model", "Pdv", "_unnormalized_K10", "_unnormalized_K10s", "_unnormalized_K11", "_unnormalized_K11s", "b2_01_a__0", "b2_01_a__1", "b2_01_a__2", "b2_01_a", "P01_ss", "_unnormalized_I02", "_unnormalized_I20", "_unnormalized_J02", "_unnormalized_J20", "conformalH", "include_2loop", "sigma_bv2", "_sigma_lin_unnormed", "sigma_lin", "sigma_v", "P02", "_unnormalized_K20_a", "_unnormalized_K20_b", "_unnormalized_K20s_a", "_unnormalized_K20s_b", "b2_00_b__0", "b2_00_b__2", "b2_00_b__4", "b2_00_b", "b2_00_c__0", "b2_00_c__2", "b2_00_c__4", "b2_00_c", "vel_disp_fitter", "vel_disp_from_sims", "sigmav_halo", "sigmav_halo_bar", "P02_ss", "sigma_v2", "P03", "b2_01_b__0", "b2_01_b__1", "b2_01_b__2", "b2_01_b", "P03_ss", "sigma_bv4", "_P22bar_0", "_unnormed_velocity_kurtosis", "velocity_kurtosis", "P04", "b2_00_d__0", "b2_00_d__2", "b2_00_d__4", "b2_00_d", "P04_ss", "P11_mu2_loaded", "P11_mu4_loaded", "_unnormalized_I11", "_unnormalized_I13", "_unnormalized_I22", "_unnormalized_I31", "_Imn1Loop_dvdv", "_unnormalized_Idvdv_h03", "_unnormalized_Idvdv_h04", "_Pdd_0", "_Pvv_0", "_Imn1Loop_vvdd", "_unnormalized_Ivvdd_h01", "_unnormalized_Ivvdd_h02", "_unnormalized_J10", "_unnormalized_J11", "use_P11_model", "P11", "P11_sim_model", "use_Pvv_model", "Pvv", "P11_ss", "_unnormalized_I03", "_unnormalized_I12", "_unnormalized_I21", "_unnormalized_I30", "P12", "P12_ss", "P13", "P13_ss", "_unnormalized_I23", "_unnormalized_I32", "_Imn1Loop_vvvv", "_unnormalized_Ivvvv_f23", "_unnormalized_Ivvvv_f32", "_unnormalized_sigmasq_k", "P22", "Pdd", "P22_ss", "alpha_png", "delta_crit", "f_nl", "p", "delta_bias", "btot", "P_mu0", "correct_mu2", "Pmu2_correction", "mu2_model_correction", "P_mu2", "correct_mu4", "Pmu4_correction", "mu4_model_correction", "P_mu4", "P_mu6", "_unnormalized_I01", "_unnormalized_I10", "_unnormalized_I33", "_unnormalized_Ivvvv_f33", "_unnormalized_J01", "_unnormalized_K01", "_unnormalized_K01s", "_unnormalized_K02s", "alpha_drag", "alpha_par", "alpha_perp", "b1_cA", "b1_cB", "fcB", "b1_c", "b1_sA", "b1_sB", "fsB", "b1_s", "bias_to_sigma_relation", "cosmo_filename", "f_so", "fiducial_rs_drag", "fs", "k0_low", "power_lin_nw", "redshift_params", "sigma_c", "sigma_fog", "sigma_s", "sigma_sA", "sigma_sB", "sigma_so", "use_vlah_biasing"]

/-- `DarkMatterSpectrum` (`rsd/power/dm/power_dm.py`). -/
def tDarkMatterSpectrum : Table :=
  [(A.linear_power_file, P none),  -- power/dm/power_dm.py:330
   (A.params, P none),  -- power/dm/power_dm.py:307
   (A.transfer_fit, P none),  -- power/dm/power_dm.py:289
   (A.transfer_fit_int, C [A.transfer_fit] [A.transfer_fit]),  -- power/dm/power_dm.py:503
   (A.cosmo, C [A.params, A.transfer_fit, A.linear_power_file] [A.linear_power_file, A.params, A.transfer_fit_int]),  -- power/dm/power_dm.py:510
   (A.z, P none),  -- power/dm/power_dm.py:355
   (A.D, C [A.z, A.cosmo] [A.cosmo, A.z]),  -- power/dm/power_dm.py:541
   (A.Nk, P none),  -- power/dm/power_dm.py:400
   (A.sigma8_z, P none),  -- power/dm/power_dm.py:407
   (A.power_norm_, C [A.sigma8_z, A.cosmo] [A.cosmo, A.sigma8_z]),  -- power/dm/power_dm.py:571
   (A.power_lin, C [A.cosmo] [A.cosmo]),  -- power/dm/power_dm.py:555
   (A.hzpt, C [A.cosmo] [A.cosmo]),  -- power/dm/power_dm.py:653
   (A.interpolate, P none),  -- power/dm/power_dm.py:281
   (A.use_P00_model, P none),  -- power/dm/power_dm.py:599
   (A.P00, C [A.z, A.sigma8_z, A.use_P00_model, A.power_lin, A.P00_mu0_loaded] [A.P00_mu0_loaded, A.loaded_data_, A.power_norm_, A.unnormalized_I00_, A.unnormalized_J00_, A.hzpt, A.interpolate, A.power_lin, A.sigma8_z, A.use_P00_model]),  -- power/dm/power_dm.py:887
   (A.kmax, P none),  -- power/dm/power_dm.py:391
   (A.kmin, P none),  -- power/dm/power_dm.py:382
   (A.k, C [A.Nk, A.kmin, A.kmax] [A.Nk, A.kmax, A.kmin]),  -- power/dm/power_dm.py:527
   (A.f, P none),  -- power/dm/power_dm.py:420
   (A.max_mu, P none),  -- power/dm/power_dm.py:337
   (A.use_P01_model, P none),  -- power/dm/power_dm.py:606
   (A.P01, C [A.f, A.z, A.sigma8_z, A.use_P01_model, A.power_lin, A.max_mu, A.P01_mu2_loaded] [A.P01_mu2_loaded, A.loaded_data_, A.power_norm_, A.unnormalized_I00_, A.unnormalized_J00_, A.f, A.hzpt, A.interpolate, A.power_lin, A.sigma8_z, A.use_P01_model]),  -- power/dm/power_dm.py:897
   (A.Pdv_model_type, P none),  -- power/dm/power_dm.py:634
   (A.Pdv_sim_model, C [A.power_lin] [A.power_lin]),  -- power/dm/power_dm.py:669
   (A.use_Pdv_model, P none),  -- power/dm/power_dm.py:620
   (A.Pdv, I [A.f, A.z, A.power_norm_, A.use_Pdv_model, A.Pdv_model_type, A.Pdv_loaded, A.k] [A.D, A.Pdv_loaded, A.Pdv_model_type, A.Pdv_sim_model, A.Pdv_0_, A.loaded_data_, A.power_norm_, A.f, A.hzpt, A.interpolate, A.k, A.power_lin, A.sigma8_z, A.use_Pdv_model, A.z]),  -- power/dm/power_dm.py:857
   (A.conformalH, C [A.z, A.cosmo] [A.cosmo, A.z]),  -- power/dm/power_dm.py:548
   (A.include_2loop, P none),  -- power/dm/power_dm.py:348
   (A.sigma_bv2, P none),  -- power/dm/power_dm.py:473
   (A.sigma_lin_unnormed_, C [A.power_lin] [A.power_lin]),  -- power/dm/power_dm.py:588
   (A.sigma_lin, C [A.power_norm_, A.sigma_lin_unnormed_] [A.power_norm_, A.sigma_lin_unnormed_]),  -- power/dm/power_dm.py:580
   (A.sigma_v, P (some A.sigma_lin)),  -- power/dm/power_dm.py:455
   (A.P02, C [A.f, A.z, A.sigma8_z, A.power_lin, A.max_mu, A.include_2loop, A.sigma_v, A.sigma_bv2, A.P00] [A.P00, A.power_norm_, A.unnormalized_I02_, A.unnormalized_I20_, A.unnormalized_J02_, A.unnormalized_J20_, A.conformalH, A.cosmo, A.f, A.include_2loop, A.power_lin, A.sigma_bv2, A.sigma_v]),  -- power/dm/power_dm.py:919
   (A.sigma_v2, P none),  -- power/dm/power_dm.py:463
   (A.P03, C [A.f, A.z, A.sigma8_z, A.power_lin, A.max_mu, A.include_2loop, A.sigma_v, A.sigma_v2, A.P01] [A.P01, A.power_norm_, A.conformalH, A.cosmo, A.f, A.include_2loop, A.power_lin, A.sigma_v, A.sigma_v2]),  -- power/dm/power_dm.py:953
   (A.sigma_bv4, P none),  -- power/dm/power_dm.py:483
   (A.P04, C [A.f, A.z, A.sigma8_z, A.power_lin, A.max_mu, A.include_2loop, A.sigma_v, A.sigma_bv4, A.P02, A.P00] [A.P00, A.P02, A.conformalH, A.cosmo, A.f, A.include_2loop, A.sigma_bv4, A.sigma_v, A.velocity_kurtosis]),  -- power/dm/power_dm.py:974
   (A.use_P11_model, P none),  -- power/dm/power_dm.py:613
   (A.P11, C [A.f, A.z, A.sigma8_z, A.use_P11_model, A.power_lin, A.max_mu, A.include_2loop, A.P11_mu2_loaded, A.P11_mu4_loaded] [A.P11_mu2_loaded, A.P11_mu4_loaded, A.loaded_data_, A.power_norm_, A.unnormalized_I11_, A.unnormalized_I13_, A.unnormalized_I22_, A.unnormalized_I31_, A.unnormalized_Idvdv_h03_, A.unnormalized_Idvdv_h04_, A.unnormalized_Ivvdd_h01_, A.unnormalized_Ivvdd_h02_, A.unnormalized_J10_, A.unnormalized_J11_, A.f, A.hzpt, A.include_2loop, A.interpolate, A.power_lin, A.sigma8_z, A.use_P11_model]),  -- power/dm/power_dm.py:907
   (A.P11_sim_model, C [A.power_lin] [A.power_lin]),  -- power/dm/power_dm.py:661
   (A.use_Pvv_model, P none),  -- power/dm/power_dm.py:627
   (A.Pvv, I [A.f, A.z, A.power_norm_, A.use_Pvv_model, A.k] [A.D, A.Pvv_0_, A.power_norm_, A.f, A.hzpt, A.interpolate, A.k, A.power_lin, A.sigma8_z, A.use_Pvv_model]),  -- power/dm/power_dm.py:876
   (A.P12, C [A.f, A.z, A.sigma8_z, A.power_lin, A.max_mu, A.include_2loop, A.sigma_v, A.sigma_bv2, A.P01] [A.P01, A.power_norm_, A.unnormalized_I03_, A.unnormalized_I12_, A.unnormalized_I21_, A.unnormalized_I30_, A.unnormalized_J02_, A.unnormalized_J20_, A.conformalH, A.cosmo, A.f, A.include_2loop, A.power_lin, A.sigma_bv2, A.sigma_v]),  -- power/dm/power_dm.py:930
   (A.P13, C [A.f, A.z, A.sigma8_z, A.power_lin, A.max_mu, A.include_2loop, A.sigma_v, A.sigma_bv2, A.sigma_v2, A.P11] [A.P11, A.conformalH, A.cosmo, A.f, A.include_2loop, A.sigma_bv2, A.sigma_v, A.sigma_v2]),  -- power/dm/power_dm.py:963
   (A.P22, C [A.f, A.z, A.sigma8_z, A.power_lin, A.max_mu, A.include_2loop, A.sigma_v, A.sigma_bv2, A.P00, A.P02] [A.P00, A.P02, A.power_norm_, A.unnormalized_I23_, A.unnormalized_I32_, A.unnormalized_Ivvvv_f23_, A.unnormalized_Ivvvv_f32_, A.unnormalized_J02_, A.unnormalized_J20_, A.unnormalized_sigmasq_k_, A.conformalH, A.cosmo, A.f, A.include_2loop, A.power_lin, A.sigma_bv2, A.sigma_v]),  -- power/dm/power_dm.py:942
   (A.Pdd, I [A.z, A.power_norm_, A.k] [A.Pdd_0_, A.power_norm_, A.k, A.power_lin]),  -- power/dm/power_dm.py:849
   (A.P_mu0, I [A.P00, A.k] [A.P00, A.k]),  -- power/dm/power_dm.py:812
   (A.P_mu2, I [A.P01, A.P11, A.P02, A.k] [A.P01, A.P02, A.P11, A.k]),  -- power/dm/power_dm.py:820
   (A.P_mu4, I [A.P11, A.P02, A.P12, A.P22, A.P03, A.P13, A.P04, A.include_2loop, A.k] [A.P02, A.P03, A.P04, A.P11, A.P12, A.P13, A.P22, A.include_2loop, A.k]),  -- power/dm/power_dm.py:829
   (A.P_mu6, I [A.P12, A.P22, A.P13, A.P04, A.include_2loop, A.k] [A.P04, A.P12, A.P13, A.P22, A.include_2loop, A.k]),  -- power/dm/power_dm.py:839
   (A.alpha_drag, P none),  -- power/dm/power_dm.py:447
   (A.alpha_par, P none),  -- power/dm/power_dm.py:439
   (A.alpha_perp, P none),  -- power/dm/power_dm.py:431
   (A.cosmo_filename, P none),  -- power/dm/power_dm.py:299
   (A.fiducial_rs_drag, C [A.cosmo] [A.cosmo]),  -- power/dm/power_dm.py:496
   (A.k0_low, P none),  -- power/dm/power_dm.py:373
   (A.power_lin_nw, C [A.cosmo] [A.cosmo]),  -- power/dm/power_dm.py:562
   (A.redshift_params, P none)]  -- power/dm/power_dm.py:644

/-- `SimLoaderMixin` (`rsd/sim_loader.py`). -/
def tSimLoaderMixin : Table :=
  [(A.P00_mu0_loaded, P none),  -- sim_loader.py:27
   (A.loaded_data_, P none),  -- sim_loader.py:59,69
   (A.P01_mu2_loaded, P none),  -- sim_loader.py:31
   (A.Pdv_loaded, P none),  -- sim_loader.py:23
   (A.P11_mu2_loaded, P none),  -- sim_loader.py:35
   (A.P11_mu4_loaded, P none)]  -- sim_loader.py:39

/-- `PTIntegralsMixin` (`rsd/pt_integrals.py`). -/
def tPTIntegralsMixin : Table :=
  [(A.Imn_, C [A.power_lin] [A.power_lin]),  -- pt_integrals.py:94
   (A.unnormalized_I00_, I [A.Imn_] [A.Imn_]),  -- pt_integrals.py:181
   (A.Jmn_, C [A.power_lin] [A.power_lin]),  -- pt_integrals.py:101
   (A.unnormalized_J00_, I [A.Jmn_] [A.Jmn_]),  -- pt_integrals.py:142
   (A.Kmn_, C [A.power_lin] [A.power_lin]),  -- pt_integrals.py:108
   (A.unnormalized_K00_, I [A.Kmn_] [A.Kmn_]),  -- pt_integrals.py:280
   (A.unnormalized_K00s_, I [A.Kmn_] [A.Kmn_]),  -- pt_integrals.py:286
   (A.Pdv_0_, C [A.power_lin] [A.power_lin]),  -- pt_integrals.py:70
   (A.unnormalized_K10_, I [A.Kmn_] [A.Kmn_]),  -- pt_integrals.py:310
   (A.unnormalized_K10s_, I [A.Kmn_] [A.Kmn_]),  -- pt_integrals.py:317
   (A.unnormalized_K11_, I [A.Kmn_] [A.Kmn_]),  -- pt_integrals.py:323
   (A.unnormalized_K11s_, I [A.Kmn_] [A.Kmn_]),  -- pt_integrals.py:329
   (A.unnormalized_I02_, I [A.Imn_] [A.Imn_]),  -- pt_integrals.py:193
   (A.unnormalized_I20_, I [A.Imn_] [A.Imn_]),  -- pt_integrals.py:229
   (A.unnormalized_J02_, I [A.Jmn_] [A.Jmn_]),  -- pt_integrals.py:166
   (A.unnormalized_J20_, I [A.Jmn_] [A.Jmn_]),  -- pt_integrals.py:172
   (A.unnormalized_K20_a_, I [A.Kmn_] [A.Kmn_]),  -- pt_integrals.py:335
   (A.unnormalized_K20_b_, I [A.Kmn_] [A.Kmn_]),  -- pt_integrals.py:341
   (A.unnormalized_K20s_a_, I [A.Kmn_] [A.Kmn_]),  -- pt_integrals.py:347
   (A.unnormalized_K20s_b_, I [A.Kmn_] [A.Kmn_]),  -- pt_integrals.py:353
   (A.P22bar_0_, C [A.power_lin] [A.power_lin]),  -- pt_integrals.py:84
   (A.unnormed_velocity_kurtosis_, C [A.P22bar_0_] [A.P22bar_0_]),  -- pt_integrals.py:428
   (A.velocity_kurtosis, C [A.unnormed_velocity_kurtosis_, A.power_norm_] [A.power_norm_, A.unnormed_velocity_kurtosis_]),  -- pt_integrals.py:435
   (A.unnormalized_I11_, I [A.Imn_] [A.Imn_]),  -- pt_integrals.py:211
   (A.unnormalized_I13_, I [A.Imn_] [A.Imn_]),  -- pt_integrals.py:223
   (A.unnormalized_I22_, I [A.Imn_] [A.Imn_]),  -- pt_integrals.py:241
   (A.unnormalized_I31_, I [A.Imn_] [A.Imn_]),  -- pt_integrals.py:259
   (A.Imn1Loop_dvdv_, C [A.Pdv_0_] [A.Pdv_0_]),  -- pt_integrals.py:115
   (A.unnormalized_Idvdv_h03_, I [A.Imn1Loop_dvdv_] [A.Imn1Loop_dvdv_]),  -- pt_integrals.py:380
   (A.unnormalized_Idvdv_h04_, I [A.Imn1Loop_dvdv_] [A.Imn1Loop_dvdv_]),  -- pt_integrals.py:389
   (A.Pdd_0_, C [A.power_lin] [A.power_lin]),  -- pt_integrals.py:63
   (A.Pvv_0_, C [A.power_lin] [A.power_lin]),  -- pt_integrals.py:77
   (A.Imn1Loop_vvdd_, C [A.Pvv_0_, A.Pdd_0_] [A.Pdd_0_, A.Pvv_0_]),  -- pt_integrals.py:123
   (A.unnormalized_Ivvdd_h01_, I [A.Imn1Loop_vvdd_] [A.Imn1Loop_vvdd_]),  -- pt_integrals.py:362
   (A.unnormalized_Ivvdd_h02_, I [A.Imn1Loop_vvdd_] [A.Imn1Loop_vvdd_]),  -- pt_integrals.py:371
   (A.unnormalized_J10_, I [A.Jmn_] [A.Jmn_]),  -- pt_integrals.py:154
   (A.unnormalized_J11_, I [A.Jmn_] [A.Jmn_]),  -- pt_integrals.py:160
   (A.unnormalized_I03_, I [A.Imn_] [A.Imn_]),  -- pt_integrals.py:199
   (A.unnormalized_I12_, I [A.Imn_] [A.Imn_]),  -- pt_integrals.py:217
   (A.unnormalized_I21_, I [A.Imn_] [A.Imn_]),  -- pt_integrals.py:235
   (A.unnormalized_I30_, I [A.Imn_] [A.Imn_]),  -- pt_integrals.py:253
   (A.unnormalized_I23_, I [A.Imn_] [A.Imn_]),  -- pt_integrals.py:247
   (A.unnormalized_I32_, I [A.Imn_] [A.Imn_]),  -- pt_integrals.py:265
   (A.Imn1Loop_vvvv_, C [A.Pvv_0_] [A.Pvv_0_]),  -- pt_integrals.py:131
   (A.unnormalized_Ivvvv_f23_, I [A.Imn1Loop_vvvv_] [A.Imn1Loop_vvvv_]),  -- pt_integrals.py:398
   (A.unnormalized_Ivvvv_f32_, I [A.Imn1Loop_vvvv_] [A.Imn1Loop_vvvv_]),  -- pt_integrals.py:407
   (A.unnormalized_sigmasq_k_, I [A.power_lin] [A.power_lin]),  -- pt_integrals.py:443
   (A.unnormalized_I01_, I [A.Imn_] [A.Imn_]),  -- pt_integrals.py:187
   (A.unnormalized_I10_, I [A.Imn_] [A.Imn_]),  -- pt_integrals.py:205
   (A.unnormalized_I33_, I [A.Imn_] [A.Imn_]),  -- pt_integrals.py:271
   (A.unnormalized_Ivvvv_f33_, I [A.Imn1Loop_vvvv_] [A.Imn1Loop_vvvv_]),  -- pt_integrals.py:416
   (A.unnormalized_J01_, I [A.Jmn_] [A.Jmn_]),  -- pt_integrals.py:148
   (A.unnormalized_K01_, I [A.Kmn_] [A.Kmn_]),  -- pt_integrals.py:292
   (A.unnormalized_K01s_, I [A.Kmn_] [A.Kmn_]),  -- pt_integrals.py:298
   (A.unnormalized_K02s_, I [A.Kmn_] [A.Kmn_])]  -- pt_integrals.py:304

/-- `BiasedSpectrum` (`rsd/power/biased/power_biased.py`). -/
def tBiasedSpectrum : Table :=
  [(A.z, P none),  -- power/biased/power_biased.py:124
   (A.b1, P none),  -- power/biased/power_biased.py:165
   (A.b1_bar, P none),  -- power/biased/power_biased.py:172
   (A.use_mean_bias, P none),  -- power/biased/power_biased.py:117
   (A.ib1_, C [A.use_mean_bias, A.b1, A.b1_bar] [A.b1, A.b1_bar, A.use_mean_bias]),  -- power/biased/power_biased.py:220
   (A.use_tidal_bias, P none),  -- power/biased/power_biased.py:151
   (A.bs, C [A.ib1_, A.use_tidal_bias] [A.ib1_, A.use_tidal_bias]),  -- power/biased/power_biased.py:240
   (A.use_Phm_model, P none),  -- power/biased/power_biased.py:158
   (A.Phm, I [A.ib1_, A.P00, A.use_Phm_model, A.sigma8_z, A.b2_00_a, A.k] [A.P00, A.ib1_, A.power_norm_, A.unnormalized_K00_, A.unnormalized_K00s_, A.b2_00_a, A.bs, A.hzpt, A.interpolate, A.k, A.sigma8_z, A.use_Phm_model]),  -- power/biased/power_biased.py:311
   (A.ib1_bar_, C [A.use_mean_bias, A.b1, A.b1_bar] [A.b1, A.b1_bar, A.use_mean_bias]),  -- power/biased/power_biased.py:230
   (A.bs_bar, C [A.ib1_bar_, A.use_tidal_bias] [A.ib1_bar_, A.use_tidal_bias]),  -- power/biased/power_biased.py:250
   (A.Phm_bar, I [A.ib1_bar_, A.P00, A.use_Phm_model, A.sigma8_z, A.b2_00_a, A.k] [A.P00, A.ib1_bar_, A.power_norm_, A.unnormalized_K00_, A.unnormalized_K00s_, A.b2_00_a, A.bs_bar, A.hzpt, A.interpolate, A.k, A.sigma8_z, A.use_Phm_model]),  -- power/biased/power_biased.py:329
   (A.P00_ss_no_stoch, C [A.P00, A.Phm, A.Phm_bar] [A.P00, A.Phm, A.Phm_bar]),  -- power/biased/power_biased.py:378
   (A.auto_stochasticity_fits, C [] []),  -- power/biased/power_biased.py:203
   (A.cross_stochasticity_fits, C [] []),  -- power/biased/power_biased.py:210
   (A.stochasticity, I [A.ib1_, A.ib1_bar_, A.z, A.sigma8_z, A.k] [A.ib1_, A.ib1_bar_, A.auto_stochasticity_fits, A.cross_stochasticity_fits, A.k, A.sigma8_z]),  -- power/biased/power_biased.py:347
   (A.P00_ss, C [A.P00_ss_no_stoch, A.stochasticity] [A.P00_ss_no_stoch, A.stochasticity]),  -- power/biased/power_biased.py:369
   (A.P01_ss, C [A.ib1_, A.ib1_bar_, A.max_mu, A.Pdv, A.P01, A.b2_01_a] [A.P01, A.Pdv, A.ib1_, A.ib1_bar_, A.power_norm_, A.unnormalized_K10_, A.unnormalized_K10s_, A.unnormalized_K11_, A.unnormalized_K11s_, A.b2_01_a, A.bs, A.bs_bar, A.f]),  -- power/biased/power_biased.py:386
   (A.vel_disp_fitter, C [] []),  -- power/biased/power_biased.py:182
   (A.vel_disp_from_sims, P none),  -- power/biased/power_biased.py:142
   (A.sigmav_halo, C [A.sigma_v, A.sigma_lin, A.vel_disp_from_sims, A.ib1_, A.sigma8_z] [A.ib1_, A.sigma8_z, A.sigma_v, A.vel_disp_fitter, A.vel_disp_from_sims]),  -- power/biased/power_biased.py:269
   (A.sigmav_halo_bar, C [A.sigma_v, A.sigma_lin, A.vel_disp_from_sims, A.ib1_bar_, A.sigma8_z] [A.ib1_bar_, A.sigma8_z, A.sigma_v, A.vel_disp_fitter, A.vel_disp_from_sims]),  -- power/biased/power_biased.py:279
   (A.P02_ss, C [A.ib1_, A.ib1_bar_, A.max_mu, A.P02, A.P00, A.sigmav_halo, A.sigmav_halo_bar, A.b2_00_b, A.b2_00_c] [A.P00, A.P02, A.ib1_, A.ib1_bar_, A.power_norm_, A.unnormalized_K00_, A.unnormalized_K00s_, A.unnormalized_K20_a_, A.unnormalized_K20_b_, A.unnormalized_K20s_a_, A.unnormalized_K20s_b_, A.b2_00_b, A.b2_00_c, A.bs, A.bs_bar, A.f, A.sigmav_halo, A.sigmav_halo_bar]),  -- power/biased/power_biased.py:396
   (A.P03_ss, C [A.ib1_, A.ib1_bar_, A.max_mu, A.Pdv, A.P01, A.sigmav_halo, A.sigmav_halo_bar, A.b2_01_b] [A.P01, A.Pdv, A.ib1_, A.ib1_bar_, A.power_norm_, A.unnormalized_K10_, A.unnormalized_K10s_, A.unnormalized_K11_, A.unnormalized_K11s_, A.b2_01_b, A.bs, A.bs_bar, A.f, A.sigmav_halo, A.sigmav_halo_bar]),  -- power/biased/power_biased.py:417
   (A.P04_ss, C [A.ib1_, A.ib1_bar_, A.P00, A.P02, A.sigmav_halo, A.sigmav_halo_bar, A.b2_00_d] [A.P00, A.P02, A.ib1_, A.ib1_bar_, A.power_norm_, A.unnormalized_K00_, A.unnormalized_K00s_, A.b2_00_d, A.bs, A.bs_bar, A.f, A.sigmav_halo, A.sigmav_halo_bar, A.velocity_kurtosis]),  -- power/biased/power_biased.py:454
   (A.P11_ss, C [A.ib1_, A.ib1_bar_, A.max_mu, A.P11, A.Pvv] [A.P11, A.Pvv, A.ib1_, A.ib1_bar_, A.power_norm_, A.unnormalized_I22_, A.unnormalized_Idvdv_h03_, A.unnormalized_Idvdv_h04_, A.unnormalized_Ivvdd_h01_, A.unnormalized_Ivvdd_h02_, A.unnormalized_J10_, A.f, A.power_lin]),  -- power/biased/power_biased.py:405
   (A.P12_ss, C [A.ib1_, A.ib1_bar_, A.max_mu, A.Pdv, A.P01, A.P12, A.sigmav_halo, A.sigmav_halo_bar, A.b2_01_b] [A.P01, A.P12, A.Pdv, A.ib1_, A.ib1_bar_, A.power_norm_, A.unnormalized_I03_, A.unnormalized_I21_, A.unnormalized_I30_, A.unnormalized_J20_, A.unnormalized_K10_, A.unnormalized_K10s_, A.unnormalized_K11_, A.unnormalized_K11s_, A.b2_01_b, A.bs, A.bs_bar, A.f, A.power_lin, A.sigmav_halo, A.sigmav_halo_bar]),  -- power/biased/power_biased.py:426
   (A.P13_ss, C [A.P11_ss, A.sigmav_halo, A.sigmav_halo_bar] [A.P11_ss, A.ib1_, A.ib1_bar_, A.f, A.sigmav_halo, A.sigmav_halo_bar]),  -- power/biased/power_biased.py:435
   (A.P22_ss, C [A.ib1_, A.ib1_bar_, A.P00, A.P02, A.P22, A.sigmav_halo, A.sigmav_halo_bar, A.b2_00_d] [A.P00, A.P02, A.P22, A.Pdd, A.ib1_, A.ib1_bar_, A.power_norm_, A.unnormalized_K00_, A.unnormalized_K00s_, A.unnormalized_sigmasq_k_, A.b2_00_d, A.bs, A.bs_bar, A.f, A.sigmav_halo, A.sigmav_halo_bar]),  -- power/biased/power_biased.py:444
   (A.P_mu0, I [A.P00_ss, A.k] [A.P00_ss, A.k]),  -- power/biased/power_biased.py:486
   (A.correct_mu2, P none),  -- power/biased/power_biased.py:103
   (A.Pmu2_correction, C [] []),  -- power/biased/power_biased.py:189
   (A.mu2_model_correction, I [A.ib1_, A.ib1_bar_, A.sigma8_z, A.f, A.k] [A.Pmu2_correction, A.ib1_, A.ib1_bar_, A.f, A.k, A.sigma8_z]),  -- power/biased/power_biased.py:463
   (A.P_mu2, I [A.P01_ss, A.P11_ss, A.P02_ss, A.correct_mu2, A.k] [A.P01_ss, A.P02_ss, A.P11_ss, A.correct_mu2, A.k, A.mu2_model_correction]),  -- power/biased/power_biased.py:494
   (A.correct_mu4, P none),  -- power/biased/power_biased.py:110
   (A.Pmu4_correction, C [] []),  -- power/biased/power_biased.py:196
   (A.mu4_model_correction, I [A.ib1_, A.ib1_bar_, A.sigma8_z, A.f, A.k] [A.Pmu4_correction, A.ib1_, A.ib1_bar_, A.f, A.k, A.sigma8_z]),  -- power/biased/power_biased.py:473
   (A.P_mu4, I [A.P11_ss, A.P02_ss, A.P12_ss, A.P22_ss, A.P03_ss, A.P13_ss, A.P04_ss, A.correct_mu4, A.k] [A.P02_ss, A.P03_ss, A.P04_ss, A.P11_ss, A.P12_ss, A.P13_ss, A.P22_ss, A.correct_mu4, A.k, A.mu4_model_correction]),  -- power/biased/power_biased.py:507
   (A.P_mu6, I [A.P12_ss, A.k] [A.P12_ss, A.power_norm_, A.unnormalized_I32_, A.f, A.k]),  -- power/biased/power_biased.py:520
   (A.bias_to_sigma_relation, C [] [A.cosmo, A.interpolate])]  -- power/biased/power_biased.py:260

/-- `NonlinearBiasingMixin` (`rsd/nonlinear_biasing.py`). -/
def tNonlinearBiasingMixin : Table :=
  [(A.b2_00_a__0, P none),  -- nonlinear_biasing.py:131
   (A.b2_00_a__2, P none),  -- nonlinear_biasing.py:135
   (A.b2_00_a__4, P none),  -- nonlinear_biasing.py:139
   (A.nonlinear_bias_fitter, C [] []),  -- nonlinear_biasing.py:74
   (A.nonlinear_bias_types, P none),  -- nonlinear_biasing.py:81
   (A.b2_00_a, C [A.b2_00_a__0, A.b2_00_a__2, A.b2_00_a__4, A.nonlinear_bias_types] [A.b2_00_a__0, A.b2_00_a__2, A.b2_00_a__4, A.nonlinear_bias_fitter, A.nonlinear_bias_types]),  -- nonlinear_biasing.py:143
   (A.b2_01_a__0, P none),  -- nonlinear_biasing.py:223
   (A.b2_01_a__1, P none),  -- nonlinear_biasing.py:227
   (A.b2_01_a__2, P none),  -- nonlinear_biasing.py:231
   (A.b2_01_a, C [A.b2_01_a__0, A.b2_01_a__1, A.b2_01_a__2, A.nonlinear_bias_types] [A.b2_01_a__0, A.b2_01_a__1, A.b2_01_a__2, A.nonlinear_bias_fitter, A.nonlinear_bias_types]),  -- nonlinear_biasing.py:235
   (A.b2_00_b__0, P none),  -- nonlinear_biasing.py:154
   (A.b2_00_b__2, P none),  -- nonlinear_biasing.py:158
   (A.b2_00_b__4, P none),  -- nonlinear_biasing.py:162
   (A.b2_00_b, C [A.b2_00_b__0, A.b2_00_b__2, A.b2_00_b__4, A.nonlinear_bias_types] [A.b2_00_a, A.b2_00_b__0, A.b2_00_b__2, A.b2_00_b__4, A.nonlinear_bias_fitter, A.nonlinear_bias_types]),  -- nonlinear_biasing.py:166
   (A.b2_00_c__0, P none),  -- nonlinear_biasing.py:177
   (A.b2_00_c__2, P none),  -- nonlinear_biasing.py:181
   (A.b2_00_c__4, P none),  -- nonlinear_biasing.py:185
   (A.b2_00_c, C [A.b2_00_c__0, A.b2_00_c__2, A.b2_00_c__4, A.nonlinear_bias_types] [A.b2_00_a, A.b2_00_c__0, A.b2_00_c__2, A.b2_00_c__4, A.nonlinear_bias_fitter, A.nonlinear_bias_types]),  -- nonlinear_biasing.py:189
   (A.b2_01_b__0, P none),  -- nonlinear_biasing.py:246
   (A.b2_01_b__1, P none),  -- nonlinear_biasing.py:250
   (A.b2_01_b__2, P none),  -- nonlinear_biasing.py:254
   (A.b2_01_b, C [A.b2_01_b__0, A.b2_01_b__1, A.b2_01_b__2, A.nonlinear_bias_types] [A.b2_01_a, A.b2_01_b__0, A.b2_01_b__1, A.b2_01_b__2, A.nonlinear_bias_fitter, A.nonlinear_bias_types]),  -- nonlinear_biasing.py:258
   (A.b2_00_d__0, P none),  -- nonlinear_biasing.py:200
   (A.b2_00_d__2, P none),  -- nonlinear_biasing.py:204
   (A.b2_00_d__4, P none),  -- nonlinear_biasing.py:208
   (A.b2_00_d, C [A.b2_00_d__0, A.b2_00_d__2, A.b2_00_d__4, A.nonlinear_bias_types] [A.b2_00_a, A.b2_00_d__0, A.b2_00_d__2, A.b2_00_d__4, A.nonlinear_bias_fitter, A.nonlinear_bias_types]),  -- nonlinear_biasing.py:212
   (A.use_vlah_biasing, P none)]  -- nonlinear_biasing.py:88

/-- `HaloSpectrum` (`rsd/power/biased/power_halo.py`). -/
def tHaloSpectrum : Table :=
  [(A.b1_bar, C [A.b1] [A.b1]),  -- power/biased/power_halo.py:12
   (A.bs_bar, C [A.bs] [A.bs])]  -- power/biased/power_halo.py:19

/-- `QuasarSpectrum` (`rsd/power/qso/power_qso.py`). -/
def tQuasarSpectrum : Table :=
  [(A.fog_model, P none),  -- power/qso/power_qso.py:122
   (A.FOG, C [A.fog_model] [A.fog_model]),  -- power/qso/power_qso.py:168
   (A.N, P none),  -- power/qso/power_qso.py:161
   (A.kmax, P none),  -- power/qso/power_qso.py:98
   (A.kmin, P none),  -- power/qso/power_qso.py:91
   (A.k, C [A.Nk, A.kmin, A.kmax] [A.Nk, A.kmax, A.kmin]),  -- power/qso/power_qso.py:82
   (A.alpha_png, I [A.k, A.cosmo, A.D] [A.D, A.power_norm_, A.cosmo, A.power_lin]),  -- power/qso/power_qso.py:185
   (A.delta_crit, C [] []),  -- power/qso/power_qso.py:178
   (A.f_nl, P none),  -- power/qso/power_qso.py:154
   (A.p, P none),  -- power/qso/power_qso.py:141
   (A.delta_bias, I [A.k, A.b1, A.f_nl, A.p] [A.alpha_png, A.b1, A.delta_crit, A.f_nl, A.p]),  -- power/qso/power_qso.py:206
   (A.btot, I [A.k, A.b1, A.delta_bias] [A.b1, A.delta_bias]),  -- power/qso/power_qso.py:216
   (A.P_mu0, I [A.k, A.sigma8_z, A.power_norm_, A.btot] [A.power_norm_, A.btot, A.power_lin]),  -- power/qso/power_qso.py:227
   (A.P_mu2, I [A.k, A.sigma8_z, A.f, A.power_norm_, A.btot] [A.power_norm_, A.btot, A.f, A.power_lin]),  -- power/qso/power_qso.py:234
   (A.P_mu4, I [A.k, A.sigma8_z, A.f, A.power_norm_] [A.power_norm_, A.f, A.power_lin]),  -- power/qso/power_qso.py:241
   (A.P_mu6, I [] [A.k]),  -- power/qso/power_qso.py:248
   (A.sigma_fog, P none)]  -- power/qso/power_qso.py:134

/-- `GalaxySpectrum` (`rsd/power/gal/power_gal.py`). -/
def tGalaxySpectrum : Table :=
  [(A.fog_model, P none),  -- power/gal/power_gal.py:153
   (A.FOG, C [A.fog_model] [A.fog_model]),  -- power/gal/power_gal.py:266
   (A.N, P none),  -- power/gal/power_gal.py:256
   (A.NcBs, P none),  -- power/gal/power_gal.py:242
   (A.NsBsB, P none),  -- power/gal/power_gal.py:249
   (A.b1_cA, P none),  -- power/gal/power_gal.py:186
   (A.b1_cB, P none),  -- power/gal/power_gal.py:193
   (A.fcB, P none),  -- power/gal/power_gal.py:172
   (A.b1_c, C [A.fcB, A.b1_cB, A.b1_cA] [A.b1_cA, A.b1_cB, A.fcB]),  -- power/gal/power_gal.py:273
   (A.b1_sA, P none),  -- power/gal/power_gal.py:200
   (A.b1_sB, P none),  -- power/gal/power_gal.py:207
   (A.fsB, P none),  -- power/gal/power_gal.py:179
   (A.b1_s, C [A.fsB, A.b1_sB, A.b1_sA] [A.b1_sA, A.b1_sB, A.fsB]),  -- power/gal/power_gal.py:281
   (A.f_so, P none),  -- power/gal/power_gal.py:138
   (A.fs, P none),  -- power/gal/power_gal.py:165
   (A.sigma_c, P none),  -- power/gal/power_gal.py:214
   (A.sigma_s, P none),  -- power/gal/power_gal.py:221
   (A.sigma_sA, P none),  -- power/gal/power_gal.py:228
   (A.sigma_sB, P none),  -- power/gal/power_gal.py:235
   (A.sigma_so, P none)]  -- power/gal/power_gal.py:145

/-- Method-resolution order of the shipped models, most derived class first. -/
def mroOf : Cls → List Table
  | .DarkMatterSpectrum => [tDarkMatterSpectrum, tSimLoaderMixin, tPTIntegralsMixin]
  | .BiasedSpectrum => [tBiasedSpectrum, tDarkMatterSpectrum, tSimLoaderMixin, tPTIntegralsMixin, tNonlinearBiasingMixin]
  | .HaloSpectrum => [tHaloSpectrum, tBiasedSpectrum, tDarkMatterSpectrum, tSimLoaderMixin, tPTIntegralsMixin, tNonlinearBiasingMixin]
  | .QuasarSpectrum => [tQuasarSpectrum, tHaloSpectrum, tBiasedSpectrum, tDarkMatterSpectrum, tSimLoaderMixin, tPTIntegralsMixin, tNonlinearBiasingMixin]
  | .GalaxySpectrum => [tGalaxySpectrum, tBiasedSpectrum, tDarkMatterSpectrum, tSimLoaderMixin, tPTIntegralsMixin, tNonlinearBiasingMixin]

/-- Certificate for `DarkMatterSpectrum`: which names are parameters, and per name the read closure, the declared
ancestors and the exceptions, as bit sets.  Checked by `check`. -/
def certDarkMatterSpectrum : Cert where
  params := 0x14401c000000000048001802040000980009bc006000180e827
  rc := [0x1, 0x2, 0x4, 0xc, 0x1f, 0x20, 0x7f, 0x0, 0x0, 0x0, 0x0, 0x800, 0x0, 0x2000, 0x4000, 0x8000, 0x1801f, 0x2001f, 0x6001f, 0xe001f, 0x12001f, 0x32001f, 0x40001f, 0x800000, 0x1000000, 0x3ffe01f, 0x0, 0x0, 0x0, 0x0, 0x4002001f, 0xc002001f, 0x14002001f, 0x0, 0x0, 0x0, 0x0, 0x0, 0x0, 0x0, 0x0, 0x20000000000, 0x40000000000, 0xe0000000800, 0x0, 0x0, 0x0, 0x0, 0x0, 0x0, 0x0, 0x0, 0x0, 0x0, 0x40000000000000, 0x80000000000000, 0x100000000000000, 0x200000000000000, 0x6c0000000ffc01f, 0x800000000000000, 0x1000000000000000, 0x200000000002001f, 0x400000000002001f, 0x8000000000000000, 0x1f8800e0000c3c87f, 0x2000000004002001f, 0x4000000004002001f, 0x8000000004002001f, 0x10000000004002001f, 0x0, 0x0, 0x0, 0x0, 0x0, 0x400000000000006001f, 0x800000000000006001f, 0x1000000000000012001f, 0x2000000000000012001f, 0x4000000000000000003f, 0x80000000000000000000, 0x100000000000000000000, 0x20000000000000002001f, 0x60000000000000003801f, 0xe0000000000000003801f, 0x1ffc000080000003ffe03f, 0x200000000000004002001f, 0x400000000000004002001f, 0x800000000000004002001f, 0x1000000000000004002001f, 0x0, 0x0, 0x0, 0x0, 0x0, 0x0, 0x0, 0x0, 0x0, 0x0, 0x0, 0x0, 0x0, 0x40000000000000000000000000, 0xc0000ec00006c0000000ffc03f, 0x0, 0x0, 0x0, 0x0, 0x0, 0x2000000000000000000000000000, 0x400000000000000000000002001f, 0xc00000000000000000000002001f, 0x1c00000000000000000000003801f, 0x3e000001ffc000080000003ffe03f, 0x0, 0x0, 0x0, 0x0, 0x0, 0x800000000000000000000000000000, 0x1000000000000000000000000000000, 0x200000000000000000000000006001f, 0x400000000000000000000000006001f, 0x800000000000000000000000006001f, 0x1000000000000000000000000006001f, 0x2000000000000000400000000002001f, 0x6000000000000000400000000002001f, 0xa000000000000000400000000002001f, 0x10000000000000000000000000002001f, 0x20000000000000000000000000002001f, 0x70000000000000000000000000002001f, 0xf0000000000000000000000000002001f, 0x170000000000000000000000000002001f, 0x200000000000000000000000000012001f, 0x400000000000000000000000000012001f, 0x8000000000000000000000000000000000, 0x1ffff800000000080004080000000d7c01f, 0x2000000000000000000000000000002001f, 0x40000000000000000000000000000000000, 0xc02000000000000000000800e0000c3887f, 0x0, 0x20000000000000000000000000000006001f, 0x40000000000000000000000000000006001f, 0x80000000000000000000000000000006001f, 0x100000000000000000000000000000006001f, 0x3e00000000000000ff00006c0000000ffc03f, 0x0, 0x801ffff800040000fc0004080000000d7c03f, 0x0, 0x2000000000000000000000000000000006001f, 0x4000000000000000000000000000000006001f, 0x8000020000000000000000000000000002001f, 0x18000020000000000000000000000000002001f, 0x28000020000000000000000000000000002001f, 0x40000000000000000000000000000000002001f, 0xfe0000200000000001ffc000080000003ffe03f, 0x10000001000000000000000000000e000003881f, 0x0, 0x0, 0x0, 0x0, 0x0, 0x0, 0x0, 0x1000000000000000000000000000000e0003ffe81f, 0x0, 0x0, 0x0, 0x100000001ffff800000001ffc0046c00e0003ffe83f, 0x0, 0x0, 0x0, 0x10000febe1ffff83e0c0001ffc0046c00e0003ffe83f, 0x20000febe1ffff83e040001ffc0046c00e0003ffe83f, 0x4000000000000000000000000000000000000006001f, 0x8000000000000000000000000000000000000006001f, 0x10000000000000000000000000000000000000006001f, 0x20000008000020000000000000000000000000002001f, 0x40000000000000000000000000000000000000012001f, 0x80000000000000000000000000000000000004002001f, 0x100000000000000000000000000000000000004002001f, 0x200000000000000000000000000000000000004002001f, 0x4000000000000000000000000000000000000000000000, 0x8000000000000000000000000000000000000000000000, 0x10000000000000000000000000000000000000000000000, 0x0, 0x0, 0x0, 0x0, 0x0, 0x0, 0x0, 0x0, 0x0, 0x4000000000000000000000000000000000000000000000000, 0x0, 0x1000000000000000000000000000000000000000000000001f, 0x0, 0x40000000000000000000000000000000000000000000000000, 0x8000000000000000000000000000000000000000000000001f, 0x100000000000000000000000000000000000000000000000000, 0x0, 0x0, 0x0, 0x0, 0x0, 0x0, 0x0]
  dc := [0x0, 0x0, 0x0, 0x4, 0x7, 0x0, 0x37, 0x0, 0x0, 0x0, 0x0, 0x0, 0x0, 0x0, 0x0, 0x0, 0x8017, 0x17, 0x20017, 0x60017, 0x20017, 0x120017, 0x17, 0x0, 0x0, 0x102a037, 0x0, 0x0, 0x0, 0x0, 0x20017, 0x40020017, 0x40020017, 0x0, 0x0, 0x0, 0x0, 0x0, 0x0, 0x0, 0x0, 0x0, 0x0, 0x60000000800, 0x0, 0x0, 0x0, 0x0, 0x0, 0x0, 0x0, 0x0, 0x0, 0x0, 0x0, 0x0, 0x0, 0x0, 0x3c0000000028037, 0x0, 0x0, 0x20017, 0x20017, 0x0, 0x98800e0000018837, 0x40020017, 0x40020017, 0x40020017, 0x40020017, 0x0, 0x0, 0x0, 0x0, 0x0, 0x60017, 0x60017, 0x120017, 0x120017, 0x37, 0x0, 0x0, 0x20017, 0x200000000000000038017, 0x0, 0x98000018000000302a037, 0x40020017, 0x40020017, 0x40020017, 0x40020017, 0x0, 0x0, 0x0, 0x0, 0x0, 0x0, 0x0, 0x0, 0x0, 0x0, 0x0, 0x0, 0x0, 0x0, 0x400008800007c0000000028037, 0x0, 0x0, 0x0, 0x0, 0x0, 0x0, 0x20017, 0x4000000000000000000000020017, 0xc000000000000000000000038017, 0x200000198000018000000302a037, 0x0, 0x0, 0x0, 0x0, 0x0, 0x0, 0x0, 0x60017, 0x60017, 0x60017, 0x60017, 0x4000000000020017, 0x20000000000000004000000000020017, 0x20000000000000004000000000020017, 0x20017, 0x20017, 0x300000000000000000000000000020017, 0x700000000000000000000000000020017, 0x700000000000000000000000000020017, 0x120017, 0x120017, 0x0, 0x8001800000000080000180000000028037, 0x20017, 0x0, 0x400000000000000000000800e0000018837, 0x0, 0x60017, 0x60017, 0x60017, 0x60017, 0x9800007c0000000028037, 0x0, 0x18001800040000980000180000000028037, 0x0, 0x60017, 0x60017, 0x200000000000000000000000000020017, 0x80000200000000000000000000000000020017, 0x80000200000000000000000000000000020017, 0x20017, 0x198000018000000302a037, 0xe0000018837, 0x0, 0x0, 0x0, 0x0, 0x0, 0x0, 0x0, 0xe000302a837, 0x0, 0x0, 0x0, 0x180018000000019800007c00e000302a837, 0x0, 0x0, 0x0, 0x80a0180018220c00019800007c00e000302a837, 0x80a0180018220400019800007c00e000302a837, 0x60017, 0x60017, 0x60017, 0x80000200000000000000000000000000020017, 0x120017, 0x40020017, 0x40020017, 0x40020017, 0x0, 0x0, 0x0, 0x0, 0x0, 0x0, 0x0, 0x0, 0x0, 0x0, 0x0, 0x0, 0x0, 0x0, 0x17, 0x0, 0x0, 0x17, 0x0, 0x0, 0x0, 0x0, 0x0, 0x0, 0x0, 0x0]
  bad := [0x0, 0x0, 0x0, 0x0, 0x0, 0x0, 0x0, 0x0, 0x0, 0x0, 0x0, 0x0, 0x0, 0x0, 0x0, 0x0, 0x0, 0x0, 0x0, 0x0, 0x0, 0x0, 0x0, 0x0, 0x0, 0x804000, 0x0, 0x0, 0x0, 0x0, 0x0, 0x0, 0x0, 0x0, 0x0, 0x0, 0x0, 0x0, 0x0, 0x0, 0x0, 0x0, 0x0, 0x0, 0x0, 0x0, 0x0, 0x0, 0x0, 0x0, 0x0, 0x0, 0x0, 0x0, 0x0, 0x0, 0x0, 0x0, 0x804000, 0x0, 0x0, 0x0, 0x0, 0x0, 0x804000, 0x0, 0x0, 0x0, 0x0, 0x0, 0x0, 0x0, 0x0, 0x0, 0x0, 0x0, 0x0, 0x0, 0x0, 0x0, 0x0, 0x0, 0x0, 0x0, 0x804000, 0x0, 0x0, 0x0, 0x0, 0x0, 0x0, 0x0, 0x0, 0x0, 0x0, 0x0, 0x0, 0x0, 0x0, 0x0, 0x0, 0x0, 0x0, 0x804000, 0x0, 0x0, 0x0, 0x0, 0x0, 0x0, 0x0, 0x0, 0x0, 0x804000, 0x0, 0x0, 0x0, 0x0, 0x0, 0x0, 0x0, 0x0, 0x0, 0x0, 0x0, 0x0, 0x0, 0x0, 0x0, 0x0, 0x0, 0x0, 0x0, 0x0, 0x0, 0x0, 0x804000, 0x0, 0x0, 0x800000, 0x0, 0x0, 0x0, 0x0, 0x0, 0x804000, 0x0, 0x804000, 0x0, 0x0, 0x0, 0x0, 0x0, 0x0, 0x0, 0x804000, 0x0, 0x0, 0x0, 0x0, 0x0, 0x0, 0x0, 0x0, 0x804000, 0x0, 0x0, 0x0, 0x804000, 0x0, 0x0, 0x0, 0x804000, 0x804000, 0x0, 0x0, 0x0, 0x0, 0x0, 0x0, 0x0, 0x0, 0x0, 0x0, 0x0, 0x0, 0x0, 0x0, 0x0, 0x0, 0x0, 0x0, 0x0, 0x0, 0x0, 0x0, 0x0, 0x0, 0x0, 0x0, 0x0, 0x0, 0x0, 0x0, 0x0, 0x0, 0x0, 0x0]

/-- Certificate for `BiasedSpectrum`: which names are parameters, and per name the read closure, the declared
ancestors and the exceptions, as bit sets.  Checked by `check`. -/
def certBiasedSpectrum : Cert where
  params := 0x814401c0022000000480019c2744ee0980e09bc016ae1d80e827
  rc := [0x1, 0x2, 0x4, 0xc, 0x1f, 0x20, 0x7f, 0x0, 0x0, 0x0, 0x0, 0x800, 0x0, 0x2000, 0x4000, 0x8000, 0x1801f, 0x2001f, 0x6001f, 0xe001f, 0x12001f, 0x32001f, 0x40001f, 0x800000, 0x1000000, 0x3ffe01f, 0x4000000, 0x8000000, 0x10000000, 0x3c000000, 0x4002001f, 0xc002001f, 0x14002001f, 0x200000000, 0x400000000, 0x800000000, 0x1000000000, 0x2000000000, 0x7e00000000, 0x8000000000, 0x1803c000000, 0x20000000000, 0x40000000000, 0xe0000000800, 0x100000000000, 0x3fffffffe81f, 0x40001c000000, 0xc0801c000000, 0x1deffdfffe81f, 0x3ffffffffe81f, 0x4000000000000, 0x8000000000000, 0x1c4e003c008800, 0x3fffffffffe81f, 0x40000000000000, 0x80000000000000, 0x100000000000000, 0x200000000000000, 0x6c0000000ffc01f, 0x800000000000000, 0x1000000000000000, 0x200000000002001f, 0x400000000002001f, 0x8000000000000000, 0x1f8800e0000c3c87f, 0x2000000004002001f, 0x4000000004002001f, 0x8000000004002001f, 0x10000000004002001f, 0x200000000000000000, 0x400000000000000000, 0x800000000000000000, 0x1e00000003000000000, 0x3fffec0cfb07cffc87f, 0x400000000000006001f, 0x800000000000006001f, 0x1000000000000012001f, 0x2000000000000012001f, 0x4000000000000000003f, 0x80000000000000000000, 0x100000000000000000000, 0x20000000000000002001f, 0x60000000000000003801f, 0xe0000000000000003801f, 0x1ffc000080000003ffe03f, 0x200000000000004002001f, 0x400000000000004002001f, 0x800000000000004002001f, 0x1000000000000004002001f, 0x20000000000000000000000, 0x40000000000000000000000, 0x80000000000000000000000, 0x1e0000000000007e00000000, 0x200000000000000000000000, 0x400000000000000000000000, 0x800000000000000000000000, 0x1e00000000000007e00000000, 0x2000000000000000000000000, 0x4000000000000000000000000, 0xe000e0000000000003c03801f, 0x16000e0000000040001c03801f, 0x3ffffffc000080c1ffffffe03f, 0x40000000000000000000000000, 0xc0000ec00006c0000000ffc03f, 0x100000000000000000000000000, 0x200000000000000000000000000, 0x400000000000000000000000000, 0xf00000001e00000003000000000, 0x1f1e000e01fffec0cfb07cffc87f, 0x2000000000000000000000000000, 0x400000000000000000000002001f, 0xc00000000000000000000002001f, 0x1c00000000000000000000003801f, 0x3e000001ffc000080000003ffe03f, 0x40000000000000000000000000000, 0x80000000000000000000000000000, 0x100000000000000000000000000000, 0x3c0000000000000000007e00000000, 0x7dc01e001ffc000080c1ffffffe03f, 0x800000000000000000000000000000, 0x1000000000000000000000000000000, 0x200000000000000000000000006001f, 0x400000000000000000000000006001f, 0x800000000000000000000000006001f, 0x1000000000000000000000000006001f, 0x2000000000000000400000000002001f, 0x6000000000000000400000000002001f, 0xa000000000000000400000000002001f, 0x10000000000000000000000000002001f, 0x20000000000000000000000000002001f, 0x70000000000000000000000000002001f, 0xf0000000000000000000000000002001f, 0x170000000000000000000000000002001f, 0x200000000000000000000000000012001f, 0x400000000000000000000000000012001f, 0x8000000000000000000000000000000000, 0x1ffff800000000080004080000000d7c01f, 0x2000000000000000000000000000002001f, 0x40000000000000000000000000000000000, 0xc02000000000000000000800e0000c3887f, 0x1dffff8000000000800040804e003cd7c87f, 0x20000000000000000000000000000006001f, 0x40000000000000000000000000000006001f, 0x80000000000000000000000000000006001f, 0x100000000000000000000000000000006001f, 0x3e00000000000000ff00006c0000000ffc03f, 0x7e00000000f1e000ff1fffec0cfb07cffc87f, 0x801ffff800040000fc0004080000000d7c03f, 0x101dffff80001e000e800040804e003cd7c87f, 0x2000000000000000000000000000000006001f, 0x4000000000000000000000000000000006001f, 0x8000020000000000000000000000000002001f, 0x18000020000000000000000000000000002001f, 0x28000020000000000000000000000000002001f, 0x40000000000000000000000000000000002001f, 0xfe0000200000000001ffc000080000003ffe03f, 0x10000001000000000000000000000e000003881f, 0x3fe00003003c001e001ffc000080cfffffffe83f, 0x0, 0x0, 0x0, 0x0, 0x0, 0x0, 0x10000000000000000000000000003fffffffffe81f, 0x200000000000000000000000000000000000000000, 0x400000000000000000000000000000000000000000, 0xc000000000000000000000000000804e003c008800, 0x1e000001dffff80003ffffffffffec0cfffffffe87f, 0x2000000000000000000000000000000000000000000, 0x4000000000000000000000000000000000000000000, 0xc0000000000000000000000000000804e003c008800, 0x1e003ff7fdfffffddf3ffffffdfffec0cfffffffe87f, 0x20000047e00000000f1e000ff1fffec0cfb07cffc87f, 0x4000000000000000000000000000000000000006001f, 0x8000000000000000000000000000000000000006001f, 0x10000000000000000000000000000000000000006001f, 0x20000008000020000000000000000000000000002001f, 0x40000000000000000000000000000000000000012001f, 0x80000000000000000000000000000000000004002001f, 0x100000000000000000000000000000000000004002001f, 0x200000000000000000000000000000000000004002001f, 0x4000000000000000000000000000000000000000000000, 0x8000000000000000000000000000000000000000000000, 0x10000000000000000000000000000000000000000000000, 0x0, 0x0, 0x0, 0x0, 0x0, 0x0, 0x0, 0x0, 0x200000000000000000000000000000000000000000080001f, 0x4000000000000000000000000000000000000000000000000, 0x0, 0x1000000000000000000000000000000000000000000000001f, 0x0, 0x40000000000000000000000000000000000000000000000000, 0x8000000000000000000000000000000000000000000000001f, 0x100000000000000000000000000000000000000000000000000, 0x0, 0x0, 0x0, 0x0, 0x0, 0x0, 0x8000000000000000000000000000000000000000000000000000]
  dc := [0x0, 0x0, 0x0, 0x4, 0x7, 0x0, 0x37, 0x0, 0x0, 0x0, 0x0, 0x0, 0x0, 0x0, 0x0, 0x0, 0x8017, 0x17, 0x20017, 0x60017, 0x20017, 0x120017, 0x17, 0x0, 0x0, 0x102a037, 0x0, 0x0, 0x0, 0x1c000000, 0x20017, 0x40020017, 0x40020017, 0x0, 0x0, 0x0, 0x0, 0x0, 0x2e00000000, 0x0, 0x803c000000, 0x0, 0x0, 0x60000000800, 0x0, 0x1e6e3f02a837, 0x1c000000, 0x40801c000000, 0x5e6e1f02a837, 0x17e6e3f02a837, 0x0, 0x0, 0x4e003c008820, 0x137e6e3f02a837, 0x0, 0x0, 0x0, 0x0, 0x3c0000000028037, 0x0, 0x0, 0x20017, 0x20017, 0x0, 0x98800e0000018837, 0x40020017, 0x40020017, 0x40020017, 0x40020017, 0x0, 0x0, 0x0, 0xe00000002000000000, 0x1e19fc04e203c038837, 0x60017, 0x60017, 0x120017, 0x120017, 0x37, 0x0, 0x0, 0x20017, 0x200000000000000038017, 0x0, 0x98000018000000302a037, 0x40020017, 0x40020017, 0x40020017, 0x40020017, 0x0, 0x0, 0x0, 0xe0000000000002000000000, 0x0, 0x0, 0x0, 0xe00000000000002000000000, 0x0, 0x0, 0x4000e0000000000003c038017, 0x4000e0000000040001c038017, 0x1dfe1f8000018040203f03a037, 0x0, 0x400008800007c0000000028037, 0x0, 0x0, 0x0, 0x700000000000000002000000000, 0xf1c000e00019fc04e203c038837, 0x0, 0x20017, 0x4000000000000000000000020017, 0xc000000000000000000000038017, 0x200000198000018000000302a037, 0x0, 0x0, 0x0, 0x1c0000000000000000002000000000, 0x3c001c001f8000018040203f03a037, 0x0, 0x0, 0x60017, 0x60017, 0x60017, 0x60017, 0x4000000000020017, 0x20000000000000004000000000020017, 0x20000000000000004000000000020017, 0x20017, 0x20017, 0x300000000000000000000000000020017, 0x700000000000000000000000000020017, 0x700000000000000000000000000020017, 0x120017, 0x120017, 0x0, 0x8001800000000080000180000000028037, 0x20017, 0x0, 0x400000000000000000000800e0000018837, 0xd80018000000000800001804e003c038837, 0x60017, 0x60017, 0x60017, 0x60017, 0x9800007c0000000028037, 0x2000000000f1c000f80019fc04e203c038837, 0x18001800040000980000180000000028037, 0x1d800180001c000e800001804e003c038837, 0x60017, 0x60017, 0x200000000000000000000000000020017, 0x80000200000000000000000000000000020017, 0x80000200000000000000000000000000020017, 0x20017, 0x198000018000000302a037, 0xe0000018837, 0x8000000003c001c001f8000018040203f03a037, 0x0, 0x0, 0x0, 0x0, 0x0, 0x0, 0x337e6e3f02a837, 0x0, 0x0, 0x804e003c008800, 0x2000001d800180003dfe1f83e19fc04e203f03a837, 0x0, 0x0, 0x804e003c008800, 0x20028161d8001fc1f3dfe1f80019fc04e203f03a837, 0x6000000000f1c000f80019fc04e203c038837, 0x60017, 0x60017, 0x60017, 0x80000200000000000000000000000000020017, 0x120017, 0x40020017, 0x40020017, 0x40020017, 0x0, 0x0, 0x0, 0x0, 0x0, 0x0, 0x0, 0x0, 0x0, 0x0, 0x0, 0x0, 0x0, 0x0, 0x17, 0x0, 0x0, 0x17, 0x0, 0x0, 0x0, 0x0, 0x0, 0x0, 0x0, 0x0]
  bad := [0x0, 0x0, 0x0, 0x0, 0x0, 0x0, 0x0, 0x0, 0x0, 0x0, 0x0, 0x0, 0x0, 0x0, 0x0, 0x0, 0x0, 0x0, 0x0, 0x0, 0x0, 0x0, 0x0, 0x0, 0x0, 0x804000, 0x0, 0x0, 0x0, 0x0, 0x0, 0x0, 0x0, 0x0, 0x0, 0x0, 0x0, 0x0, 0x0, 0x0, 0x0, 0x0, 0x0, 0x0, 0x0, 0x8000804000, 0x0, 0x0, 0x8000804000, 0x8000804000, 0x0, 0x0, 0x0, 0x8000804000, 0x0, 0x0, 0x0, 0x0, 0x804000, 0x0, 0x0, 0x0, 0x0, 0x0, 0x804000, 0x0, 0x0, 0x0, 0x0, 0x0, 0x0, 0x0, 0x0, 0x8000804000, 0x0, 0x0, 0x0, 0x0, 0x0, 0x0, 0x0, 0x0, 0x0, 0x0, 0x804000, 0x0, 0x0, 0x0, 0x0, 0x0, 0x0, 0x0, 0xe00000000, 0x0, 0x0, 0x0, 0xe00000000, 0x0, 0x0, 0x0, 0x0, 0x8e00804000, 0x0, 0x804000, 0x0, 0x0, 0x0, 0xe00000000000000000, 0xe00000008000804000, 0x0, 0x0, 0x0, 0x0, 0x804000, 0x0, 0x0, 0x0, 0xe00000000, 0x8e00804000, 0x0, 0x0, 0x0, 0x0, 0x0, 0x0, 0x0, 0x0, 0x0, 0x0, 0x0, 0x0, 0x0, 0x0, 0x0, 0x0, 0x0, 0x804000, 0x0, 0x0, 0x800000, 0x804000, 0x0, 0x0, 0x0, 0x0, 0x804000, 0xe00000008000804000, 0x804000, 0x804000, 0x0, 0x0, 0x0, 0x0, 0x0, 0x0, 0x804000, 0x0, 0x68e00804800, 0x0, 0x0, 0x0, 0x0, 0x0, 0x0, 0x8000804000, 0x0, 0x0, 0x0, 0x8e00804000, 0x0, 0x0, 0x0, 0xe00000068e00804800, 0xe00000008000804000, 0x0, 0x0, 0x0, 0x0, 0x0, 0x0, 0x0, 0x0, 0x0, 0x0, 0x0, 0x0, 0x0, 0x0, 0x0, 0x0, 0x0, 0x0, 0x0, 0x800007, 0x0, 0x0, 0x0, 0x0, 0x0, 0x0, 0x0, 0x0, 0x0, 0x0, 0x0, 0x0, 0x0, 0x0]

/-- Certificate for `HaloSpectrum`: which names are parameters, and per name the read closure, the declared
ancestors and the exceptions, as bit sets.  Checked by `check`. -/
def certHaloSpectrum : Cert where
  params := 0x814401c0022000000480019c2744ee0980e09bc016ae1580e827
  rc := [0x1, 0x2, 0x4, 0xc, 0x1f, 0x20, 0x7f, 0x0, 0x0, 0x0, 0x0, 0x800, 0x0, 0x2000, 0x4000, 0x8000, 0x1801f, 0x2001f, 0x6001f, 0xe001f, 0x12001f, 0x32001f, 0x40001f, 0x800000, 0x1000000, 0x3ffe01f, 0x4000000, 0xc000000, 0x10000000, 0x3c000000, 0x4002001f, 0xc002001f, 0x14002001f, 0x200000000, 0x400000000, 0x800000000, 0x1000000000, 0x2000000000, 0x7e00000000, 0x8000000000, 0x1803c000000, 0x20000000000, 0x40000000000, 0xe0000000800, 0x100000000000, 0x3fffffffe81f, 0x40001c000000, 0x81803c000000, 0x1dfffffffe81f, 0x3ffffffffe81f, 0x4000000000000, 0x8000000000000, 0x1c4e003c008800, 0x3fffffffffe81f, 0x40000000000000, 0x80000000000000, 0x100000000000000, 0x200000000000000, 0x6c0000000ffc01f, 0x800000000000000, 0x1000000000000000, 0x200000000002001f, 0x400000000002001f, 0x8000000000000000, 0x1f8800e0000c3c87f, 0x2000000004002001f, 0x4000000004002001f, 0x8000000004002001f, 0x10000000004002001f, 0x200000000000000000, 0x400000000000000000, 0x800000000000000000, 0x1e00000003000000000, 0x3fffec0cfb07cffc87f, 0x400000000000006001f, 0x800000000000006001f, 0x1000000000000012001f, 0x2000000000000012001f, 0x4000000000000000003f, 0x80000000000000000000, 0x100000000000000000000, 0x20000000000000002001f, 0x60000000000000003801f, 0xe0000000000000003801f, 0x1ffc000080000003ffe03f, 0x200000000000004002001f, 0x400000000000004002001f, 0x800000000000004002001f, 0x1000000000000004002001f, 0x20000000000000000000000, 0x40000000000000000000000, 0x80000000000000000000000, 0x1e0000000000007e00000000, 0x200000000000000000000000, 0x400000000000000000000000, 0x800000000000000000000000, 0x1e00000000000007e00000000, 0x2000000000000000000000000, 0x4000000000000000000000000, 0xe000e0000000000003c03801f, 0x16000e0000000040001c03801f, 0x3ffffffc000080c1ffffffe03f, 0x40000000000000000000000000, 0xc0000ec00006c0000000ffc03f, 0x100000000000000000000000000, 0x200000000000000000000000000, 0x400000000000000000000000000, 0xf00000001e00000003000000000, 0x1f1e000e01fffec0cfb07cffc87f, 0x2000000000000000000000000000, 0x400000000000000000000002001f, 0xc00000000000000000000002001f, 0x1c00000000000000000000003801f, 0x3e000001ffc000080000003ffe03f, 0x40000000000000000000000000000, 0x80000000000000000000000000000, 0x100000000000000000000000000000, 0x3c0000000000000000007e00000000, 0x7dc01e001ffc000080c1ffffffe03f, 0x800000000000000000000000000000, 0x1000000000000000000000000000000, 0x200000000000000000000000006001f, 0x400000000000000000000000006001f, 0x800000000000000000000000006001f, 0x1000000000000000000000000006001f, 0x2000000000000000400000000002001f, 0x6000000000000000400000000002001f, 0xa000000000000000400000000002001f, 0x10000000000000000000000000002001f, 0x20000000000000000000000000002001f, 0x70000000000000000000000000002001f, 0xf0000000000000000000000000002001f, 0x170000000000000000000000000002001f, 0x200000000000000000000000000012001f, 0x400000000000000000000000000012001f, 0x8000000000000000000000000000000000, 0x1ffff800000000080004080000000d7c01f, 0x2000000000000000000000000000002001f, 0x40000000000000000000000000000000000, 0xc02000000000000000000800e0000c3887f, 0x1dffff8000000000800040804e003cd7c87f, 0x20000000000000000000000000000006001f, 0x40000000000000000000000000000006001f, 0x80000000000000000000000000000006001f, 0x100000000000000000000000000000006001f, 0x3e00000000000000ff00006c0000000ffc03f, 0x7e00000000f1e000ff1fffec0cfb07cffc87f, 0x801ffff800040000fc0004080000000d7c03f, 0x101dffff80001e000e800040804e003cd7c87f, 0x2000000000000000000000000000000006001f, 0x4000000000000000000000000000000006001f, 0x8000020000000000000000000000000002001f, 0x18000020000000000000000000000000002001f, 0x28000020000000000000000000000000002001f, 0x40000000000000000000000000000000002001f, 0xfe0000200000000001ffc000080000003ffe03f, 0x10000001000000000000000000000e000003881f, 0x3fe00003003c001e001ffc000080cfffffffe83f, 0x0, 0x0, 0x0, 0x0, 0x0, 0x0, 0x10000000000000000000000000003fffffffffe81f, 0x200000000000000000000000000000000000000000, 0x400000000000000000000000000000000000000000, 0xc000000000000000000000000000804e003c008800, 0x1e000001dffff80003ffffffffffec0cfffffffe87f, 0x2000000000000000000000000000000000000000000, 0x4000000000000000000000000000000000000000000, 0xc0000000000000000000000000000804e003c008800, 0x1e003ff7fdfffffddf3ffffffdfffec0cfffffffe87f, 0x20000047e00000000f1e000ff1fffec0cfb07cffc87f, 0x4000000000000000000000000000000000000006001f, 0x8000000000000000000000000000000000000006001f, 0x10000000000000000000000000000000000000006001f, 0x20000008000020000000000000000000000000002001f, 0x40000000000000000000000000000000000000012001f, 0x80000000000000000000000000000000000004002001f, 0x100000000000000000000000000000000000004002001f, 0x200000000000000000000000000000000000004002001f, 0x4000000000000000000000000000000000000000000000, 0x8000000000000000000000000000000000000000000000, 0x10000000000000000000000000000000000000000000000, 0x0, 0x0, 0x0, 0x0, 0x0, 0x0, 0x0, 0x0, 0x200000000000000000000000000000000000000000080001f, 0x4000000000000000000000000000000000000000000000000, 0x0, 0x1000000000000000000000000000000000000000000000001f, 0x0, 0x40000000000000000000000000000000000000000000000000, 0x8000000000000000000000000000000000000000000000001f, 0x100000000000000000000000000000000000000000000000000, 0x0, 0x0, 0x0, 0x0, 0x0, 0x0, 0x8000000000000000000000000000000000000000000000000000]
  dc := [0x0, 0x0, 0x0, 0x4, 0x7, 0x0, 0x37, 0x0, 0x0, 0x0, 0x0, 0x0, 0x0, 0x0, 0x0, 0x0, 0x8017, 0x17, 0x20017, 0x60017, 0x20017, 0x120017, 0x17, 0x0, 0x0, 0x102a037, 0x0, 0x4000000, 0x0, 0x1c000000, 0x20017, 0x40020017, 0x40020017, 0x0, 0x0, 0x0, 0x0, 0x0, 0x2e00000000, 0x0, 0x803c000000, 0x0, 0x0, 0x60000000800, 0x0, 0x1e6e3f02a837, 0x1c000000, 0x1803c000000, 0x5e6e1f02a837, 0x17e6e3f02a837, 0x0, 0x0, 0x4e003c008820, 0x137e6e3f02a837, 0x0, 0x0, 0x0, 0x0, 0x3c0000000028037, 0x0, 0x0, 0x20017, 0x20017, 0x0, 0x98800e0000018837, 0x40020017, 0x40020017, 0x40020017, 0x40020017, 0x0, 0x0, 0x0, 0xe00000002000000000, 0x1e19fc04e203c038837, 0x60017, 0x60017, 0x120017, 0x120017, 0x37, 0x0, 0x0, 0x20017, 0x200000000000000038017, 0x0, 0x98000018000000302a037, 0x40020017, 0x40020017, 0x40020017, 0x40020017, 0x0, 0x0, 0x0, 0xe0000000000002000000000, 0x0, 0x0, 0x0, 0xe00000000000002000000000, 0x0, 0x0, 0x4000e0000000000003c038017, 0x4000e0000000040001c038017, 0x1dfe1f8000018040203f03a037, 0x0, 0x400008800007c0000000028037, 0x0, 0x0, 0x0, 0x700000000000000002000000000, 0xf1c000e00019fc04e203c038837, 0x0, 0x20017, 0x4000000000000000000000020017, 0xc000000000000000000000038017, 0x200000198000018000000302a037, 0x0, 0x0, 0x0, 0x1c0000000000000000002000000000, 0x3c001c001f8000018040203f03a037, 0x0, 0x0, 0x60017, 0x60017, 0x60017, 0x60017, 0x4000000000020017, 0x20000000000000004000000000020017, 0x20000000000000004000000000020017, 0x20017, 0x20017, 0x300000000000000000000000000020017, 0x700000000000000000000000000020017, 0x700000000000000000000000000020017, 0x120017, 0x120017, 0x0, 0x8001800000000080000180000000028037, 0x20017, 0x0, 0x400000000000000000000800e0000018837, 0xd80018000000000800001804e003c038837, 0x60017, 0x60017, 0x60017, 0x60017, 0x9800007c0000000028037, 0x2000000000f1c000f80019fc04e203c038837, 0x18001800040000980000180000000028037, 0x1d800180001c000e800001804e003c038837, 0x60017, 0x60017, 0x200000000000000000000000000020017, 0x80000200000000000000000000000000020017, 0x80000200000000000000000000000000020017, 0x20017, 0x198000018000000302a037, 0xe0000018837, 0x8000000003c001c001f8000018040203f03a037, 0x0, 0x0, 0x0, 0x0, 0x0, 0x0, 0x337e6e3f02a837, 0x0, 0x0, 0x804e003c008800, 0x2000001d800180003dfe1f83e19fc04e203f03a837, 0x0, 0x0, 0x804e003c008800, 0x20028161d8001fc1f3dfe1f80019fc04e203f03a837, 0x6000000000f1c000f80019fc04e203c038837, 0x60017, 0x60017, 0x60017, 0x80000200000000000000000000000000020017, 0x120017, 0x40020017, 0x40020017, 0x40020017, 0x0, 0x0, 0x0, 0x0, 0x0, 0x0, 0x0, 0x0, 0x0, 0x0, 0x0, 0x0, 0x0, 0x0, 0x17, 0x0, 0x0, 0x17, 0x0, 0x0, 0x0, 0x0, 0x0, 0x0, 0x0, 0x0]
  bad := [0x0, 0x0, 0x0, 0x0, 0x0, 0x0, 0x0, 0x0, 0x0, 0x0, 0x0, 0x0, 0x0, 0x0, 0x0, 0x0, 0x0, 0x0, 0x0, 0x0, 0x0, 0x0, 0x0, 0x0, 0x0, 0x804000, 0x0, 0x0, 0x0, 0x0, 0x0, 0x0, 0x0, 0x0, 0x0, 0x0, 0x0, 0x0, 0x0, 0x0, 0x0, 0x0, 0x0, 0x0, 0x0, 0x8000804000, 0x0, 0x0, 0x8000804000, 0x8000804000, 0x0, 0x0, 0x0, 0x8000804000, 0x0, 0x0, 0x0, 0x0, 0x804000, 0x0, 0x0, 0x0, 0x0, 0x0, 0x804000, 0x0, 0x0, 0x0, 0x0, 0x0, 0x0, 0x0, 0x0, 0x8000804000, 0x0, 0x0, 0x0, 0x0, 0x0, 0x0, 0x0, 0x0, 0x0, 0x0, 0x804000, 0x0, 0x0, 0x0, 0x0, 0x0, 0x0, 0x0, 0xe00000000, 0x0, 0x0, 0x0, 0xe00000000, 0x0, 0x0, 0x0, 0x0, 0x8e00804000, 0x0, 0x804000, 0x0, 0x0, 0x0, 0xe00000000000000000, 0xe00000008000804000, 0x0, 0x0, 0x0, 0x0, 0x804000, 0x0, 0x0, 0x0, 0xe00000000, 0x8e00804000, 0x0, 0x0, 0x0, 0x0, 0x0, 0x0, 0x0, 0x0, 0x0, 0x0, 0x0, 0x0, 0x0, 0x0, 0x0, 0x0, 0x0, 0x804000, 0x0, 0x0, 0x800000, 0x804000, 0x0, 0x0, 0x0, 0x0, 0x804000, 0xe00000008000804000, 0x804000, 0x804000, 0x0, 0x0, 0x0, 0x0, 0x0, 0x0, 0x804000, 0x0, 0x68e00804800, 0x0, 0x0, 0x0, 0x0, 0x0, 0x0, 0x8000804000, 0x0, 0x0, 0x0, 0x8e00804000, 0x0, 0x0, 0x0, 0xe00000068e00804800, 0xe00000008000804000, 0x0, 0x0, 0x0, 0x0, 0x0, 0x0, 0x0, 0x0, 0x0, 0x0, 0x0, 0x0, 0x0, 0x0, 0x0, 0x0, 0x0, 0x0, 0x0, 0x800007, 0x0, 0x0, 0x0, 0x0, 0x0, 0x0, 0x0, 0x0, 0x0, 0x0, 0x0, 0x0, 0x0, 0x0]

/-- Certificate for `QuasarSpectrum`: which names are parameters, and per name the read closure, the declared
ancestors and the exceptions, as bit sets.  Checked by `check`. -/
def certQuasarSpectrum : Cert where
  params := 0x854401c0022300000480019c2744ee0980e09bc016ae1580eaa7
  rc := [0x1, 0x2, 0x4, 0xc, 0x1f, 0x20, 0x7f, 0x80, 0x180, 0x200, 0x0, 0x800, 0x0, 0x2000, 0x4000, 0x8000, 0x1801f, 0x2001f, 0x6001f, 0xe001f, 0x12001f, 0x32001f, 0x40001f, 0x800000, 0x1000000, 0x3ffe01f, 0x4000000, 0xc000000, 0x10000000, 0x3c000000, 0x4002001f, 0xc002001f, 0x14002001f, 0x200000000, 0x400000000, 0x800000000, 0x1000000000, 0x2000000000, 0x7e00000000, 0x8000000000, 0x1803c000000, 0x20000000000, 0x40000000000, 0xe0000000800, 0x100000000000, 0x3fffffffe81f, 0x40001c000000, 0x81803c000000, 0x1dfffffffe81f, 0x3ffffffffe81f, 0x4000000000000, 0x8000000000000, 0x1c4e003c008800, 0x3fffffffffe81f, 0x40000000000000, 0x80000000000000, 0x100000000000000, 0x200000000000000, 0x6c0000000ffc01f, 0x800000000000000, 0x1000000000000000, 0x200000000002001f, 0x400000000002001f, 0x8000000000000000, 0x1f8800e0000c3c87f, 0x2000000004002001f, 0x4000000004002001f, 0x8000000004002001f, 0x10000000004002001f, 0x200000000000000000, 0x400000000000000000, 0x800000000000000000, 0x1e00000003000000000, 0x3fffec0cfb07cffc87f, 0x400000000000006001f, 0x800000000000006001f, 0x1000000000000012001f, 0x2000000000000012001f, 0x4000000000000000003f, 0x80000000000000000000, 0x100000000000000000000, 0x20000000000000002001f, 0x60000000000000003801f, 0xe0000000000000003801f, 0x1ffc000080000003ffe03f, 0x200000000000004002001f, 0x400000000000004002001f, 0x800000000000004002001f, 0x1000000000000004002001f, 0x20000000000000000000000, 0x40000000000000000000000, 0x80000000000000000000000, 0x1e0000000000007e00000000, 0x200000000000000000000000, 0x400000000000000000000000, 0x800000000000000000000000, 0x1e00000000000007e00000000, 0x2000000000000000000000000, 0x4000000000000000000000000, 0xe000e0000000000003c03801f, 0x16000e0000000040001c03801f, 0x3ffffffc000080c1ffffffe03f, 0x40000000000000000000000000, 0xc0000ec00006c0000000ffc03f, 0x100000000000000000000000000, 0x200000000000000000000000000, 0x400000000000000000000000000, 0xf00000001e00000003000000000, 0x1f1e000e01fffec0cfb07cffc87f, 0x2000000000000000000000000000, 0x400000000000000000000002001f, 0xc00000000000000000000002001f, 0x1c00000000000000000000003801f, 0x3e000001ffc000080000003ffe03f, 0x40000000000000000000000000000, 0x80000000000000000000000000000, 0x100000000000000000000000000000, 0x3c0000000000000000007e00000000, 0x7dc01e001ffc000080c1ffffffe03f, 0x800000000000000000000000000000, 0x1000000000000000000000000000000, 0x200000000000000000000000006001f, 0x400000000000000000000000006001f, 0x800000000000000000000000006001f, 0x1000000000000000000000000006001f, 0x2000000000000000400000000002001f, 0x6000000000000000400000000002001f, 0xa000000000000000400000000002001f, 0x10000000000000000000000000002001f, 0x20000000000000000000000000002001f, 0x70000000000000000000000000002001f, 0xf0000000000000000000000000002001f, 0x170000000000000000000000000002001f, 0x200000000000000000000000000012001f, 0x400000000000000000000000000012001f, 0x8000000000000000000000000000000000, 0x1ffff800000000080004080000000d7c01f, 0x2000000000000000000000000000002001f, 0x40000000000000000000000000000000000, 0xc02000000000000000000800e0000c3887f, 0x1dffff8000000000800040804e003cd7c87f, 0x20000000000000000000000000000006001f, 0x40000000000000000000000000000006001f, 0x80000000000000000000000000000006001f, 0x100000000000000000000000000000006001f, 0x3e00000000000000ff00006c0000000ffc03f, 0x7e00000000f1e000ff1fffec0cfb07cffc87f, 0x801ffff800040000fc0004080000000d7c03f, 0x101dffff80001e000e800040804e003cd7c87f, 0x2000000000000000000000000000000006001f, 0x4000000000000000000000000000000006001f, 0x8000020000000000000000000000000002001f, 0x18000020000000000000000000000000002001f, 0x28000020000000000000000000000000002001f, 0x40000000000000000000000000000000002001f, 0xfe0000200000000001ffc000080000003ffe03f, 0x10000001000000000000000000000e000003881f, 0x3fe00003003c001e001ffc000080cfffffffe83f, 0x400000000000000000000000000000000003807f, 0x8000000000000000000000000000000000000000, 0x10000000000000000000000000000000000000000, 0x20000000000000000000000000000000000000000, 0x7c00000000000000000000000000000000403807f, 0xfc00000000000000000000000000000000403807f, 0x1fc00000000000000000000000000000000403807f, 0x200000000000000000000000000000000000000000, 0x400000000000000000000000000000000000000000, 0xc000000000000000000000000000804e003c008800, 0x10fc00000000000000000000000008000000403807f, 0x2000000000000000000000000000000000000000000, 0x4000000000000000000000000000000000000000000, 0xc0000000000000000000000000000804e003c008800, 0x1000000000000000000000000000008000000003801f, 0x200000000000000000000000000000000e0000000800, 0x4000000000000000000000000000000000000006001f, 0x8000000000000000000000000000000000000006001f, 0x10000000000000000000000000000000000000006001f, 0x20000008000020000000000000000000000000002001f, 0x40000000000000000000000000000000000000012001f, 0x80000000000000000000000000000000000004002001f, 0x100000000000000000000000000000000000004002001f, 0x200000000000000000000000000000000000004002001f, 0x4000000000000000000000000000000000000000000000, 0x8000000000000000000000000000000000000000000000, 0x10000000000000000000000000000000000000000000000, 0x0, 0x0, 0x0, 0x0, 0x0, 0x0, 0x0, 0x0, 0x200000000000000000000000000000000000000000080001f, 0x4000000000000000000000000000000000000000000000000, 0x0, 0x1000000000000000000000000000000000000000000000001f, 0x0, 0x40000000000000000000000000000000000000000000000000, 0x8000000000000000000000000000000000000000000000001f, 0x100000000000000000000000000000000000000000000000000, 0x0, 0x400000000000000000000000000000000000000000000000000, 0x0, 0x0, 0x0, 0x0, 0x8000000000000000000000000000000000000000000000000000]
  dc := [0x0, 0x0, 0x0, 0x4, 0x7, 0x0, 0x37, 0x0, 0x80, 0x0, 0x0, 0x0, 0x0, 0x0, 0x0, 0x0, 0x8017, 0x17, 0x20017, 0x60017, 0x20017, 0x120017, 0x17, 0x0, 0x0, 0x102a037, 0x0, 0x4000000, 0x0, 0x1c000000, 0x20017, 0x40020017, 0x40020017, 0x0, 0x0, 0x0, 0x0, 0x0, 0x2e00000000, 0x0, 0x803c000000, 0x0, 0x0, 0x60000000800, 0x0, 0x1e6e3f02a837, 0x1c000000, 0x1803c000000, 0x5e6e1f02a837, 0x17e6e3f02a837, 0x0, 0x0, 0x4e003c008820, 0x137e6e3f02a837, 0x0, 0x0, 0x0, 0x0, 0x3c0000000028037, 0x0, 0x0, 0x20017, 0x20017, 0x0, 0x98800e0000018837, 0x40020017, 0x40020017, 0x40020017, 0x40020017, 0x0, 0x0, 0x0, 0xe00000002000000000, 0x1e19fc04e203c038837, 0x60017, 0x60017, 0x120017, 0x120017, 0x37, 0x0, 0x0, 0x20017, 0x200000000000000038017, 0x0, 0x98000018000000302a037, 0x40020017, 0x40020017, 0x40020017, 0x40020017, 0x0, 0x0, 0x0, 0xe0000000000002000000000, 0x0, 0x0, 0x0, 0xe00000000000002000000000, 0x0, 0x0, 0x4000e0000000000003c038017, 0x4000e0000000040001c038017, 0x1dfe1f8000018040203f03a037, 0x0, 0x400008800007c0000000028037, 0x0, 0x0, 0x0, 0x700000000000000002000000000, 0xf1c000e00019fc04e203c038837, 0x0, 0x20017, 0x4000000000000000000000020017, 0xc000000000000000000000038017, 0x200000198000018000000302a037, 0x0, 0x0, 0x0, 0x1c0000000000000000002000000000, 0x3c001c001f8000018040203f03a037, 0x0, 0x0, 0x60017, 0x60017, 0x60017, 0x60017, 0x4000000000020017, 0x20000000000000004000000000020017, 0x20000000000000004000000000020017, 0x20017, 0x20017, 0x300000000000000000000000000020017, 0x700000000000000000000000000020017, 0x700000000000000000000000000020017, 0x120017, 0x120017, 0x0, 0x8001800000000080000180000000028037, 0x20017, 0x0, 0x400000000000000000000800e0000018837, 0xd80018000000000800001804e003c038837, 0x60017, 0x60017, 0x60017, 0x60017, 0x9800007c0000000028037, 0x2000000000f1c000f80019fc04e203c038837, 0x18001800040000980000180000000028037, 0x1d800180001c000e800001804e003c038837, 0x60017, 0x60017, 0x200000000000000000000000000020017, 0x80000200000000000000000000000000020017, 0x80000200000000000000000000000000020017, 0x20017, 0x198000018000000302a037, 0xe0000018837, 0x8000000003c001c001f8000018040203f03a037, 0xe0000000877, 0x0, 0x0, 0x0, 0x300000000000000000000000000000e0004000800, 0x700000000000000000000000000000e0004000800, 0xf00000000000000000000000000000e0004018817, 0x0, 0x0, 0x804e003c008800, 0xf00000000000000000000000000800e0004018817, 0x0, 0x0, 0x804e003c008800, 0x800e0000018817, 0x0, 0x60017, 0x60017, 0x60017, 0x80000200000000000000000000000000020017, 0x120017, 0x40020017, 0x40020017, 0x40020017, 0x0, 0x0, 0x0, 0x0, 0x0, 0x0, 0x0, 0x0, 0x0, 0x0, 0x0, 0x0, 0x0, 0x0, 0x17, 0x0, 0x0, 0x17, 0x0, 0x0, 0x0, 0x0, 0x0, 0x0, 0x0, 0x0]
  bad := [0x0, 0x0, 0x0, 0x0, 0x0, 0x0, 0x0, 0x0, 0x0, 0x0, 0x0, 0x0, 0x0, 0x0, 0x0, 0x0, 0x0, 0x0, 0x0, 0x0, 0x0, 0x0, 0x0, 0x0, 0x0, 0x804000, 0x0, 0x0, 0x0, 0x0, 0x0, 0x0, 0x0, 0x0, 0x0, 0x0, 0x0, 0x0, 0x0, 0x0, 0x0, 0x0, 0x0, 0x0, 0x0, 0x8000804000, 0x0, 0x0, 0x8000804000, 0x8000804000, 0x0, 0x0, 0x0, 0x8000804000, 0x0, 0x0, 0x0, 0x0, 0x804000, 0x0, 0x0, 0x0, 0x0, 0x0, 0x804000, 0x0, 0x0, 0x0, 0x0, 0x0, 0x0, 0x0, 0x0, 0x8000804000, 0x0, 0x0, 0x0, 0x0, 0x0, 0x0, 0x0, 0x0, 0x0, 0x0, 0x804000, 0x0, 0x0, 0x0, 0x0, 0x0, 0x0, 0x0, 0xe00000000, 0x0, 0x0, 0x0, 0xe00000000, 0x0, 0x0, 0x0, 0x0, 0x8e00804000, 0x0, 0x804000, 0x0, 0x0, 0x0, 0xe00000000000000000, 0xe00000008000804000, 0x0, 0x0, 0x0, 0x0, 0x804000, 0x0, 0x0, 0x0, 0xe00000000, 0x8e00804000, 0x0, 0x0, 0x0, 0x0, 0x0, 0x0, 0x0, 0x0, 0x0, 0x0, 0x0, 0x0, 0x0, 0x0, 0x0, 0x0, 0x0, 0x804000, 0x0, 0x0, 0x800000, 0x804000, 0x0, 0x0, 0x0, 0x0, 0x804000, 0xe00000008000804000, 0x804000, 0x804000, 0x0, 0x0, 0x0, 0x0, 0x0, 0x0, 0x804000, 0x0, 0x68e00804800, 0x8000, 0x0, 0x0, 0x0, 0x8027, 0x8027, 0x8027, 0x0, 0x0, 0x0, 0x8027, 0x0, 0x0, 0x0, 0x0, 0x60000000800, 0x0, 0x0, 0x0, 0x0, 0x0, 0x0, 0x0, 0x0, 0x0, 0x0, 0x0, 0x0, 0x0, 0x0, 0x0, 0x0, 0x0, 0x0, 0x0, 0x800007, 0x0, 0x0, 0x0, 0x0, 0x0, 0x0, 0x0, 0x0, 0x0, 0x0, 0x0, 0x0, 0x0, 0x0]

/-- Certificate for `GalaxySpectrum`: which names are parameters, and per name the read closure, the declared
ancestors and the exceptions, as bit sets.  Checked by `check`. -/
def certGalaxySpectrum : Cert where
  params := 0xfb6cefc0022000000480019c2744ee0980e09bc016ae1d80fea7
  rc := [0x1, 0x2, 0x4, 0xc, 0x1f, 0x20, 0x7f, 0x80, 0x180, 0x200, 0x400, 0x800, 0x1000, 0x2000, 0x4000, 0x8000, 0x1801f, 0x2001f, 0x6001f, 0xe001f, 0x12001f, 0x32001f, 0x40001f, 0x800000, 0x1000000, 0x3ffe01f, 0x4000000, 0x8000000, 0x10000000, 0x3c000000, 0x4002001f, 0xc002001f, 0x14002001f, 0x200000000, 0x400000000, 0x800000000, 0x1000000000, 0x2000000000, 0x7e00000000, 0x8000000000, 0x1803c000000, 0x20000000000, 0x40000000000, 0xe0000000800, 0x100000000000, 0x3fffffffe81f, 0x40001c000000, 0xc0801c000000, 0x1deffdfffe81f, 0x3ffffffffe81f, 0x4000000000000, 0x8000000000000, 0x1c4e003c008800, 0x3fffffffffe81f, 0x40000000000000, 0x80000000000000, 0x100000000000000, 0x200000000000000, 0x6c0000000ffc01f, 0x800000000000000, 0x1000000000000000, 0x200000000002001f, 0x400000000002001f, 0x8000000000000000, 0x1f8800e0000c3c87f, 0x2000000004002001f, 0x4000000004002001f, 0x8000000004002001f, 0x10000000004002001f, 0x200000000000000000, 0x400000000000000000, 0x800000000000000000, 0x1e00000003000000000, 0x3fffec0cfb07cffc87f, 0x400000000000006001f, 0x800000000000006001f, 0x1000000000000012001f, 0x2000000000000012001f, 0x4000000000000000003f, 0x80000000000000000000, 0x100000000000000000000, 0x20000000000000002001f, 0x60000000000000003801f, 0xe0000000000000003801f, 0x1ffc000080000003ffe03f, 0x200000000000004002001f, 0x400000000000004002001f, 0x800000000000004002001f, 0x1000000000000004002001f, 0x20000000000000000000000, 0x40000000000000000000000, 0x80000000000000000000000, 0x1e0000000000007e00000000, 0x200000000000000000000000, 0x400000000000000000000000, 0x800000000000000000000000, 0x1e00000000000007e00000000, 0x2000000000000000000000000, 0x4000000000000000000000000, 0xe000e0000000000003c03801f, 0x16000e0000000040001c03801f, 0x3ffffffc000080c1ffffffe03f, 0x40000000000000000000000000, 0xc0000ec00006c0000000ffc03f, 0x100000000000000000000000000, 0x200000000000000000000000000, 0x400000000000000000000000000, 0xf00000001e00000003000000000, 0x1f1e000e01fffec0cfb07cffc87f, 0x2000000000000000000000000000, 0x400000000000000000000002001f, 0xc00000000000000000000002001f, 0x1c00000000000000000000003801f, 0x3e000001ffc000080000003ffe03f, 0x40000000000000000000000000000, 0x80000000000000000000000000000, 0x100000000000000000000000000000, 0x3c0000000000000000007e00000000, 0x7dc01e001ffc000080c1ffffffe03f, 0x800000000000000000000000000000, 0x1000000000000000000000000000000, 0x200000000000000000000000006001f, 0x400000000000000000000000006001f, 0x800000000000000000000000006001f, 0x1000000000000000000000000006001f, 0x2000000000000000400000000002001f, 0x6000000000000000400000000002001f, 0xa000000000000000400000000002001f, 0x10000000000000000000000000002001f, 0x20000000000000000000000000002001f, 0x70000000000000000000000000002001f, 0xf0000000000000000000000000002001f, 0x170000000000000000000000000002001f, 0x200000000000000000000000000012001f, 0x400000000000000000000000000012001f, 0x8000000000000000000000000000000000, 0x1ffff800000000080004080000000d7c01f, 0x2000000000000000000000000000002001f, 0x40000000000000000000000000000000000, 0xc02000000000000000000800e0000c3887f, 0x1dffff8000000000800040804e003cd7c87f, 0x20000000000000000000000000000006001f, 0x40000000000000000000000000000006001f, 0x80000000000000000000000000000006001f, 0x100000000000000000000000000000006001f, 0x3e00000000000000ff00006c0000000ffc03f, 0x7e00000000f1e000ff1fffec0cfb07cffc87f, 0x801ffff800040000fc0004080000000d7c03f, 0x101dffff80001e000e800040804e003cd7c87f, 0x2000000000000000000000000000000006001f, 0x4000000000000000000000000000000006001f, 0x8000020000000000000000000000000002001f, 0x18000020000000000000000000000000002001f, 0x28000020000000000000000000000000002001f, 0x40000000000000000000000000000000002001f, 0xfe0000200000000001ffc000080000003ffe03f, 0x10000001000000000000000000000e000003881f, 0x3fe00003003c001e001ffc000080cfffffffe83f, 0x0, 0x0, 0x0, 0x0, 0x0, 0x0, 0x10000000000000000000000000003fffffffffe81f, 0x200000000000000000000000000000000000000000, 0x400000000000000000000000000000000000000000, 0xc000000000000000000000000000804e003c008800, 0x1e000001dffff80003ffffffffffec0cfffffffe87f, 0x2000000000000000000000000000000000000000000, 0x4000000000000000000000000000000000000000000, 0xc0000000000000000000000000000804e003c008800, 0x1e003ff7fdfffffddf3ffffffdfffec0cfffffffe87f, 0x20000047e00000000f1e000ff1fffec0cfb07cffc87f, 0x4000000000000000000000000000000000000006001f, 0x8000000000000000000000000000000000000006001f, 0x10000000000000000000000000000000000000006001f, 0x20000008000020000000000000000000000000002001f, 0x40000000000000000000000000000000000000012001f, 0x80000000000000000000000000000000000004002001f, 0x100000000000000000000000000000000000004002001f, 0x200000000000000000000000000000000000004002001f, 0x4000000000000000000000000000000000000000000000, 0x8000000000000000000000000000000000000000000000, 0x10000000000000000000000000000000000000000000000, 0x20000000000000000000000000000000000000000000000, 0x40000000000000000000000000000000000000000000000, 0x80000000000000000000000000000000000000000000000, 0x1e0000000000000000000000000000000000000000000000, 0x200000000000000000000000000000000000000000000000, 0x400000000000000000000000000000000000000000000000, 0x800000000000000000000000000000000000000000000000, 0x1e00000000000000000000000000000000000000000000000, 0x200000000000000000000000000000000000000000080001f, 0x4000000000000000000000000000000000000000000000000, 0x8000000000000000000000000000000000000000000000000, 0x1000000000000000000000000000000000000000000000001f, 0x20000000000000000000000000000000000000000000000000, 0x40000000000000000000000000000000000000000000000000, 0x8000000000000000000000000000000000000000000000001f, 0x100000000000000000000000000000000000000000000000000, 0x200000000000000000000000000000000000000000000000000, 0x0, 0x800000000000000000000000000000000000000000000000000, 0x1000000000000000000000000000000000000000000000000000, 0x2000000000000000000000000000000000000000000000000000, 0x4000000000000000000000000000000000000000000000000000, 0x8000000000000000000000000000000000000000000000000000]
  dc := [0x0, 0x0, 0x0, 0x4, 0x7, 0x0, 0x37, 0x0, 0x80, 0x0, 0x0, 0x0, 0x0, 0x0, 0x0, 0x0, 0x8017, 0x17, 0x20017, 0x60017, 0x20017, 0x120017, 0x17, 0x0, 0x0, 0x102a037, 0x0, 0x0, 0x0, 0x1c000000, 0x20017, 0x40020017, 0x40020017, 0x0, 0x0, 0x0, 0x0, 0x0, 0x2e00000000, 0x0, 0x803c000000, 0x0, 0x0, 0x60000000800, 0x0, 0x1e6e3f02a837, 0x1c000000, 0x40801c000000, 0x5e6e1f02a837, 0x17e6e3f02a837, 0x0, 0x0, 0x4e003c008820, 0x137e6e3f02a837, 0x0, 0x0, 0x0, 0x0, 0x3c0000000028037, 0x0, 0x0, 0x20017, 0x20017, 0x0, 0x98800e0000018837, 0x40020017, 0x40020017, 0x40020017, 0x40020017, 0x0, 0x0, 0x0, 0xe00000002000000000, 0x1e19fc04e203c038837, 0x60017, 0x60017, 0x120017, 0x120017, 0x37, 0x0, 0x0, 0x20017, 0x200000000000000038017, 0x0, 0x98000018000000302a037, 0x40020017, 0x40020017, 0x40020017, 0x40020017, 0x0, 0x0, 0x0, 0xe0000000000002000000000, 0x0, 0x0, 0x0, 0xe00000000000002000000000, 0x0, 0x0, 0x4000e0000000000003c038017, 0x4000e0000000040001c038017, 0x1dfe1f8000018040203f03a037, 0x0, 0x400008800007c0000000028037, 0x0, 0x0, 0x0, 0x700000000000000002000000000, 0xf1c000e00019fc04e203c038837, 0x0, 0x20017, 0x4000000000000000000000020017, 0xc000000000000000000000038017, 0x200000198000018000000302a037, 0x0, 0x0, 0x0, 0x1c0000000000000000002000000000, 0x3c001c001f8000018040203f03a037, 0x0, 0x0, 0x60017, 0x60017, 0x60017, 0x60017, 0x4000000000020017, 0x20000000000000004000000000020017, 0x20000000000000004000000000020017, 0x20017, 0x20017, 0x300000000000000000000000000020017, 0x700000000000000000000000000020017, 0x700000000000000000000000000020017, 0x120017, 0x120017, 0x0, 0x8001800000000080000180000000028037, 0x20017, 0x0, 0x400000000000000000000800e0000018837, 0xd80018000000000800001804e003c038837, 0x60017, 0x60017, 0x60017, 0x60017, 0x9800007c0000000028037, 0x2000000000f1c000f80019fc04e203c038837, 0x18001800040000980000180000000028037, 0x1d800180001c000e800001804e003c038837, 0x60017, 0x60017, 0x200000000000000000000000000020017, 0x80000200000000000000000000000000020017, 0x80000200000000000000000000000000020017, 0x20017, 0x198000018000000302a037, 0xe0000018837, 0x8000000003c001c001f8000018040203f03a037, 0x0, 0x0, 0x0, 0x0, 0x0, 0x0, 0x337e6e3f02a837, 0x0, 0x0, 0x804e003c008800, 0x2000001d800180003dfe1f83e19fc04e203f03a837, 0x0, 0x0, 0x804e003c008800, 0x20028161d8001fc1f3dfe1f80019fc04e203f03a837, 0x6000000000f1c000f80019fc04e203c038837, 0x60017, 0x60017, 0x60017, 0x80000200000000000000000000000000020017, 0x120017, 0x40020017, 0x40020017, 0x40020017, 0x0, 0x0, 0x0, 0x0, 0x0, 0x0, 0xe0000000000000000000000000000000000000000000000, 0x0, 0x0, 0x0, 0xe00000000000000000000000000000000000000000000000, 0x0, 0x0, 0x0, 0x17, 0x0, 0x0, 0x17, 0x0, 0x0, 0x0, 0x0, 0x0, 0x0, 0x0, 0x0]
  bad := [0x0, 0x0, 0x0, 0x0, 0x0, 0x0, 0x0, 0x0, 0x0, 0x0, 0x0, 0x0, 0x0, 0x0, 0x0, 0x0, 0x0, 0x0, 0x0, 0x0, 0x0, 0x0, 0x0, 0x0, 0x0, 0x804000, 0x0, 0x0, 0x0, 0x0, 0x0, 0x0, 0x0, 0x0, 0x0, 0x0, 0x0, 0x0, 0x0, 0x0, 0x0, 0x0, 0x0, 0x0, 0x0, 0x8000804000, 0x0, 0x0, 0x8000804000, 0x8000804000, 0x0, 0x0, 0x0, 0x8000804000, 0x0, 0x0, 0x0, 0x0, 0x804000, 0x0, 0x0, 0x0, 0x0, 0x0, 0x804000, 0x0, 0x0, 0x0, 0x0, 0x0, 0x0, 0x0, 0x0, 0x8000804000, 0x0, 0x0, 0x0, 0x0, 0x0, 0x0, 0x0, 0x0, 0x0, 0x0, 0x804000, 0x0, 0x0, 0x0, 0x0, 0x0, 0x0, 0x0, 0xe00000000, 0x0, 0x0, 0x0, 0xe00000000, 0x0, 0x0, 0x0, 0x0, 0x8e00804000, 0x0, 0x804000, 0x0, 0x0, 0x0, 0xe00000000000000000, 0xe00000008000804000, 0x0, 0x0, 0x0, 0x0, 0x804000, 0x0, 0x0, 0x0, 0xe00000000, 0x8e00804000, 0x0, 0x0, 0x0, 0x0, 0x0, 0x0, 0x0, 0x0, 0x0, 0x0, 0x0, 0x0, 0x0, 0x0, 0x0, 0x0, 0x0, 0x804000, 0x0, 0x0, 0x800000, 0x804000, 0x0, 0x0, 0x0, 0x0, 0x804000, 0xe00000008000804000, 0x804000, 0x804000, 0x0, 0x0, 0x0, 0x0, 0x0, 0x0, 0x804000, 0x0, 0x68e00804800, 0x0, 0x0, 0x0, 0x0, 0x0, 0x0, 0x8000804000, 0x0, 0x0, 0x0, 0x8e00804000, 0x0, 0x0, 0x0, 0xe00000068e00804800, 0xe00000008000804000, 0x0, 0x0, 0x0, 0x0, 0x0, 0x0, 0x0, 0x0, 0x0, 0x0, 0x0, 0x0, 0x0, 0x0, 0x0, 0x0, 0x0, 0x0, 0x0, 0x800007, 0x0, 0x0, 0x0, 0x0, 0x0, 0x0, 0x0, 0x0, 0x0, 0x0, 0x0, 0x0, 0x0, 0x0]

def certOf : Cls → Cert
  | .DarkMatterSpectrum => certDarkMatterSpectrum
  | .BiasedSpectrum => certBiasedSpectrum
  | .HaloSpectrum => certHaloSpectrum
  | .QuasarSpectrum => certQuasarSpectrum
  | .GalaxySpectrum => certGalaxySpectrum

end Verif.Shipped

import Verif.Model.Interpolant

/-!
# The tables of corrections at low energies

The numbers of `crosssection/parametrization/ParamTables.cxx` for bremsstrahlung and pair production by photons, and the interpolants made
of them.
-/

namespace Proposal

/-- `A_logZ` (ParamTables.cxx 18272-18274). -/
noncomputable def aLogZ : List ℝ :=
  [
   0, 0.69314718, 1.79175947, 2.07944154, 2.56494936, 2.99573227, 3.36729583, 3.68887945, 3.91202301, 4.17438727, 4.30406509, 4.36944785,
   4.52178858, 4.60517019]

/-- `A_energies` (ParamTables.cxx 18252-18270). -/
noncomputable def aEnergies : List ℝ :=
  [
   1.0000e-3, 1.2500e-3, 1.5000e-3, 1.7500e-3, 2.0000e-3, 2.5000e-3, 3.0000e-3, 3.5000e-3, 4.0000e-3, 4.5000e-3, 5.0000e-3, 5.5000e-3,
   6.0000e-3, 7.0000e-3, 8.0000e-3, 9.0000e-3, 1.0000e-2, 1.2500e-2, 1.5000e-2, 1.7500e-2, 2.0000e-2, 2.5000e-2, 3.0000e-2, 3.5000e-2,
   4.0000e-2, 4.5000e-2, 5.0000e-2, 5.5000e-2, 6.0000e-2, 7.0000e-2, 8.0000e-2, 9.0000e-2, 1.0000e-1, 1.2500e-1, 1.5000e-1, 1.7500e-1,
   2.0000e-1, 2.5000e-1, 3.0000e-1, 3.5000e-1, 4.0000e-1, 4.5000e-1, 5.0000e-1, 5.5000e-1, 6.0000e-1, 7.0000e-1, 8.0000e-1, 9.0000e-1,
   1.0000e0, 1.2500e0, 1.5000e0, 1.7500e0, 2.0000e0, 2.5000e0, 3.0000e0, 3.5000e0, 4.0000e0, 4.5000e0, 5.0000e0, 5.5000e0, 6.0000e0,
   7.0000e0, 8.0000e0, 9.0000e0, 1.0000e1, 1.2500e1, 1.5000e1, 1.7500e1, 2.0000e1, 2.5000e1, 3.0000e1, 3.5000e1, 4.0000e1, 4.5000e1,
   4.9488e1, 5.0000e1, 5.5000e1, 6.0000e1, 7.0000e1, 8.0000e1, 9.0000e1, 1.0000e2, 1.2500e2, 1.5000e2, 1.7500e2, 2.0000e2, 2.5000e2,
   3.0000e2, 3.5000e2, 4.0000e2, 4.5000e2, 5.0000e2, 5.5000e2, 6.0000e2, 7.0000e2, 8.0000e2, 9.0000e2, 1.0000e3, 1.2500e3, 1.5000e3,
   1.7500e3, 2.0000e3, 2.5000e3, 3.0000e3, 3.5000e3, 4.0000e3, 4.5000e3, 5.0000e3, 5.5000e3, 6.0000e3, 7.0000e3, 8.0000e3, 9.0000e3,
   1.0000e4, 1.25e4]

/-- `A_correction` (ParamTables.cxx 18276-18515). -/
noncomputable def aCorrection : List (List ℝ) :=
  [[
    4.5687e1, 3.6763e1, 3.0817e1, 2.6574e1, 2.3388e1, 1.8935e1, 1.5963e1, 1.3837e1, 1.2241e1, 1.0995e1, 9.9973e0, 9.1803e0, 8.4983e0,
    7.4237e0, 6.6134e0, 5.9821e0, 5.4741e0, 4.5521e0, 3.9306e0, 3.4809e0, 3.1397e0, 2.6547e0, 2.3250e0, 2.0856e0, 1.9033e0, 1.7594e0,
    1.6431e0, 1.5467e0, 1.4653e0, 1.3360e0, 1.2379e0, 1.1610e0, 1.0993e0, 9.8851e-1, 9.1542e-1, 8.6440e-1, 8.2723e-1, 7.7802e-1, 7.4834e-1,
    7.2977e-1, 7.1816e-1, 7.1127e-1, 7.0735e-1, 7.0549e-1, 7.0516e-1, 7.0732e-1, 7.1153e-1, 7.1701e-1, 7.2304e-1, 7.3867e-1, 7.5370e-1,
    7.6734e-1, 7.7942e-1, 7.9968e-1, 8.1585e-1, 8.2890e-1, 8.3972e-1, 8.4885e-1, 8.5672e-1, 8.6346e-1, 8.6941e-1, 8.7940e-1, 8.8731e-1,
    8.9393e-1, 8.9935e-1, 9.0994e-1, 9.1757e-1, 9.2344e-1, 9.2809e-1, 9.3515e-1, 9.4020e-1, 9.4407e-1, 9.4712e-1, 9.4964e-1, 9.5156e-1,
    9.5173e-1, 9.5347e-1, 9.5491e-1, 9.5731e-1, 9.5918e-1, 9.6064e-1, 9.6188e-1, 9.6434e-1, 9.6626e-1, 9.6780e-1, 9.6924e-1, 9.7159e-1,
    9.7363e-1, 9.7532e-1, 9.7688e-1, 9.7823e-1, 9.7945e-1, 9.8056e-1, 9.8158e-1, 9.8340e-1, 9.8492e-1, 9.8633e-1, 9.8756e-1, 9.9015e-1,
    9.9221e-1, 9.9393e-1, 9.9539e-1, 9.9781e-1, 9.9967e-1, 1.0012e0, 1.0025e0, 1.0037e0, 1.0046e0, 1.0054e0, 1.0061e0, 1.0073e0, 1.0082e0,
    1.0089e0, 1.0094e0, 1.0094e0],
   [
    6.3993e1, 5.1916e1, 4.3741e1, 3.7843e1, 3.3387e1, 2.7089e1, 2.2853e1, 1.9813e1, 1.7519e1, 1.5726e1, 1.4284e1, 1.3102e1, 1.2110e1,
    1.0551e1, 9.3763e0, 8.4598e0, 7.7228e0, 6.3860e0, 5.4861e0, 4.8371e0, 4.3460e0, 3.6489e0, 3.1769e0, 2.8340e0, 2.5740e0, 2.3688e0,
    2.2023e0, 2.0648e0, 1.9490e0, 1.7647e0, 1.6244e0, 1.5143e0, 1.4256e0, 1.2647e0, 1.1571e0, 1.0803e0, 1.0235e0, 9.4564e-1, 8.9633e-1,
    8.6349e-1, 8.4111e-1, 8.2553e-1, 8.1482e-1, 8.0732e-1, 8.0221e-1, 7.9656e-1, 7.9497e-1, 7.9571e-1, 7.9807e-1, 8.0618e-1, 8.1601e-1,
    8.2562e-1, 8.3460e-1, 8.4968e-1, 8.6183e-1, 8.7163e-1, 8.7979e-1, 8.8651e-1, 8.9223e-1, 8.9718e-1, 9.0147e-1, 9.0864e-1, 9.1423e-1,
    9.1871e-1, 9.2241e-1, 9.2931e-1, 9.3414e-1, 9.3771e-1, 9.4050e-1, 9.4445e-1, 9.4715e-1, 9.4906e-1, 9.5050e-1, 9.5153e-1, 9.5231e-1,
    9.5241e-1, 9.5296e-1, 9.5344e-1, 9.5394e-1, 9.5419e-1, 9.5424e-1, 9.5416e-1, 9.5389e-1, 9.5351e-1, 9.5317e-1, 9.5289e-1, 9.5251e-1,
    9.5223e-1, 9.5212e-1, 9.5199e-1, 9.5197e-1, 9.5201e-1, 9.5204e-1, 9.5208e-1, 9.5224e-1, 9.5241e-1, 9.5256e-1, 9.5269e-1, 9.5301e-1,
    9.5323e-1, 9.5341e-1, 9.5353e-1, 9.5380e-1, 9.5395e-1, 9.5415e-1, 9.5431e-1, 9.5445e-1, 9.5462e-1, 9.5471e-1, 9.5485e-1, 9.5501e-1,
    9.5507e-1, 9.5516e-1, 9.5516e-1, 9.5516e-1],
   [
    8.0280e1, 6.7700e1, 5.8565e1, 5.1636e1, 4.6203e1, 3.8230e1, 3.2660e1, 2.8548e1, 2.5390e1, 2.2882e1, 2.0846e1, 1.9155e1, 1.7733e1,
    1.5462e1, 1.3732e1, 1.2369e1, 1.1270e1, 9.2669e0, 7.9143e0, 6.9365e0, 6.1965e0, 5.1502e0, 4.4445e0, 3.9348e0, 3.5481e0, 3.2457e0,
    3.0013e0, 2.8003e0, 2.6317e0, 2.3640e0, 2.1611e0, 2.0022e0, 1.8739e0, 1.6416e0, 1.4847e0, 1.3718e0, 1.2870e0, 1.1689e0, 1.0923e0,
    1.0394e0, 1.0018e0, 9.7442e-1, 9.5403e-1, 9.3856e-1, 9.2665e-1, 9.1034e-1, 9.0027e-1, 8.9424e-1, 8.9089e-1, 8.8889e-1, 8.9144e-1,
    8.9553e-1, 9.0001e-1, 9.0842e-1, 9.1556e-1, 9.2145e-1, 9.2635e-1, 9.3054e-1, 9.3416e-1, 9.3736e-1, 9.4013e-1, 9.4490e-1, 9.4875e-1,
    9.5203e-1, 9.5478e-1, 9.6007e-1, 9.6393e-1, 9.6673e-1, 9.6879e-1, 9.7152e-1, 9.7305e-1, 9.7379e-1, 9.7424e-1, 9.7459e-1, 9.7475e-1,
    9.7530e-1, 9.7542e-1, 9.7548e-1, 9.7553e-1, 9.7554e-1, 9.7554e-1, 9.7553e-1, 9.7555e-1, 9.7561e-1, 9.7566e-1, 9.7577e-1, 9.7603e-1,
    9.7630e-1, 9.7655e-1, 9.7680e-1, 9.7704e-1, 9.7720e-1, 9.7745e-1, 9.7758e-1, 9.7788e-1, 9.7817e-1, 9.7840e-1, 9.7859e-1, 9.7903e-1,
    9.7933e-1, 9.7964e-1, 9.7984e-1, 9.8025e-1, 9.8050e-1, 9.8069e-1, 9.8084e-1, 9.8098e-1, 9.8114e-1, 9.8121e-1, 9.8129e-1, 9.8142e-1,
    9.8156e-1, 9.8171e-1, 9.8180e-1, 9.8180e-1],
   [
    7.8661e1, 6.7170e1, 5.8690e1, 5.2182e1, 4.7016e1, 3.9336e1, 3.3899e1, 2.9830e1, 2.6672e1, 2.4147e1, 2.2081e1, 2.0356e1, 1.8895e1,
    1.6550e1, 1.4747e1, 1.3317e1, 1.2154e1, 1.0025e1, 8.5720e0, 7.5181e0, 6.7168e0, 5.5772e0, 4.8060e0, 4.2480e0, 3.8260e0, 3.4941e0,
    3.2270e0, 3.0068e0, 2.8226e0, 2.5307e0, 2.3097e0, 2.1369e0, 1.9977e0, 1.7449e0, 1.5745e0, 1.4520e0, 1.3596e0, 1.2309e0, 1.1471e0,
    1.0890e0, 1.0474e0, 1.0168e0, 9.9392e-1, 9.7650e-1, 9.6293e-1, 9.4374e-1, 9.3148e-1, 9.2385e-1, 9.1908e-1, 9.1450e-1, 9.1533e-1,
    9.1806e-1, 9.2141e-1, 9.2821e-1, 9.3415e-1, 9.3907e-1, 9.4320e-1, 9.4662e-1, 9.4955e-1, 9.5219e-1, 9.5451e-1, 9.5844e-1, 9.6157e-1,
    9.6426e-1, 9.6650e-1, 9.7085e-1, 9.7391e-1, 9.7610e-1, 9.7770e-1, 9.7961e-1, 9.8051e-1, 9.8084e-1, 9.8095e-1, 9.8093e-1, 9.8084e-1,
    9.8184e-1, 9.8171e-1, 9.8151e-1, 9.8116e-1, 9.8084e-1, 9.8060e-1, 9.8030e-1, 9.7983e-1, 9.7947e-1, 9.7926e-1, 9.7911e-1, 9.7892e-1,
    9.7887e-1, 9.7883e-1, 9.7888e-1, 9.7889e-1, 9.7893e-1, 9.7897e-1, 9.7897e-1, 9.7903e-1, 9.7911e-1, 9.7916e-1, 9.7920e-1, 9.7934e-1,
    9.7948e-1, 9.7962e-1, 9.7970e-1, 9.7986e-1, 9.8001e-1, 9.8009e-1, 9.8018e-1, 9.8023e-1, 9.8029e-1, 9.8031e-1, 9.8040e-1, 9.8043e-1,
    9.8051e-1, 9.8060e-1, 9.8064e-1, 9.8064e-1],
   [
    6.9212e1, 6.0409e1, 5.3726e1, 4.8452e1, 4.4205e1, 3.7731e1, 3.3026e1, 2.9438e1, 2.6611e1, 2.4316e1, 2.2413e1, 2.0809e1, 1.9438e1,
    1.7212e1, 1.5480e1, 1.4088e1, 1.2943e1, 1.0810e1, 9.3282e0, 8.2381e0, 7.3986e0, 6.1881e0, 5.3563e0, 4.7473e0, 4.2812e0, 3.9127e0,
    3.6146e0, 3.3672e0, 3.1587e0, 2.8266e0, 2.5741e0, 2.3760e0, 2.2160e0, 1.9251e0, 1.7292e0, 1.5891e0, 1.4839e0, 1.3374e0, 1.2415e0,
    1.1749e0, 1.1267e0, 1.0906e0, 1.0631e0, 1.0418e0, 1.0248e0, 1.0001e0, 9.8375e-1, 9.7249e-1, 9.6499e-1, 9.5527e-1, 9.5249e-1, 9.5280e-1,
    9.5421e-1, 9.5818e-1, 9.6213e-1, 9.6542e-1, 9.6819e-1, 9.7057e-1, 9.7252e-1, 9.7424e-1, 9.7579e-1, 9.7820e-1, 9.8001e-1, 9.8148e-1,
    9.8254e-1, 9.8447e-1, 9.8559e-1, 9.8621e-1, 9.8654e-1, 9.8647e-1, 9.8601e-1, 9.8540e-1, 9.8473e-1, 9.8409e-1, 9.8357e-1, 9.8631e-1,
    9.8576e-1, 9.8522e-1, 9.8439e-1, 9.8366e-1, 9.8304e-1, 9.8254e-1, 9.8163e-1, 9.8095e-1, 9.8056e-1, 9.8024e-1, 9.7988e-1, 9.7963e-1,
    9.7951e-1, 9.7937e-1, 9.7939e-1, 9.7936e-1, 9.7932e-1, 9.7931e-1, 9.7930e-1, 9.7928e-1, 9.7933e-1, 9.7932e-1, 9.7932e-1, 9.7941e-1,
    9.7950e-1, 9.7955e-1, 9.7966e-1, 9.7968e-1, 9.7980e-1, 9.7982e-1, 9.7988e-1, 9.7992e-1, 9.7999e-1, 9.7999e-1, 9.8005e-1, 9.8010e-1,
    9.8011e-1, 9.8018e-1, 9.8018e-1],
   [
    5.7876e1, 5.1025e1, 4.5913e1, 4.1899e1, 3.8643e1, 3.3626e1, 2.9914e1, 2.7036e1, 2.4729e1, 2.2830e1, 2.1233e1, 1.9874e1, 1.8697e1,
    1.6761e1, 1.5229e1, 1.3983e1, 1.2947e1, 1.0976e1, 9.5794e0, 8.5346e0, 7.7198e0, 6.5268e0, 5.6925e0, 5.0746e0, 4.5977e0, 4.2173e0,
    3.9066e0, 3.6473e0, 3.4276e0, 3.0756e0, 2.8057e0, 2.5922e0, 2.4190e0, 2.1018e0, 1.8864e0, 1.7306e0, 1.6130e0, 1.4480e0, 1.3391e0,
    1.2626e0, 1.2067e0, 1.1648e0, 1.1324e0, 1.1070e0, 1.0868e0, 1.0566e0, 1.0359e0, 1.0214e0, 1.0110e0, 9.9598e-1, 9.8961e-1, 9.8696e-1,
    9.8610e-1, 9.8647e-1, 9.8775e-1, 9.8879e-1, 9.8989e-1, 9.9069e-1, 9.9145e-1, 9.9205e-1, 9.9250e-1, 9.9333e-1, 9.9386e-1, 9.9418e-1,
    9.9444e-1, 9.9458e-1, 9.9451e-1, 9.9418e-1, 9.9382e-1, 9.9288e-1, 9.9193e-1, 9.9095e-1, 9.9008e-1, 9.8930e-1, 9.8877e-1, 9.9553e-1,
    9.9493e-1, 9.9439e-1, 9.9357e-1, 9.9294e-1, 9.9247e-1, 9.9212e-1, 9.9145e-1, 9.9114e-1, 9.9092e-1, 9.9074e-1, 9.9062e-1, 9.9058e-1,
    9.9056e-1, 9.9061e-1, 9.9064e-1, 9.9064e-1, 9.9076e-1, 9.9080e-1, 9.9082e-1, 9.9095e-1, 9.9100e-1, 9.9103e-1, 9.9121e-1, 9.9133e-1,
    9.9147e-1, 9.9154e-1, 9.9173e-1, 9.9179e-1, 9.9189e-1, 9.9201e-1, 9.9205e-1, 9.9213e-1, 9.9214e-1, 9.9219e-1, 9.9227e-1, 9.9228e-1,
    9.9232e-1, 9.9235e-1, 9.9235e-1],
   [
    4.7469e1, 4.2287e1, 3.8497e1, 3.5536e1, 3.3113e1, 2.9331e1, 2.6478e1, 2.4223e1, 2.2383e1, 2.0849e1, 1.9541e1, 1.8417e1, 1.7431e1,
    1.5792e1, 1.4475e1, 1.3393e1, 1.2483e1, 1.0727e1, 9.4573e0, 8.4952e0, 7.7377e0, 6.6149e0, 5.8188e0, 5.2238e0, 4.7592e0, 4.3871e0,
    4.0804e0, 3.8239e0, 3.6050e0, 3.2518e0, 2.9786e0, 2.7614e0, 2.5843e0, 2.2563e0, 2.0309e0, 1.8659e0, 1.7402e0, 1.5619e0, 1.4420e0,
    1.3568e0, 1.2938e0, 1.2458e0, 1.2083e0, 1.1785e0, 1.1543e0, 1.1177e0, 1.0919e0, 1.0732e0, 1.0592e0, 1.0375e0, 1.0266e0, 1.0203e0,
    1.0166e0, 1.0128e0, 1.0107e0, 1.0092e0, 1.0080e0, 1.0069e0, 1.0060e0, 1.0051e0, 1.0044e0, 1.0030e0, 1.0018e0, 1.0006e0, 9.9949e-1,
    9.9713e-1, 9.9520e-1, 9.9344e-1, 9.9199e-1, 9.8942e-1, 9.8728e-1, 9.8551e-1, 9.8403e-1, 9.8284e-1, 9.8199e-1, 9.9632e-1, 9.9533e-1,
    9.9448e-1, 9.9316e-1, 9.9221e-1, 9.9136e-1, 9.9088e-1, 9.8985e-1, 9.8925e-1, 9.8881e-1, 9.8842e-1, 9.8800e-1, 9.8761e-1, 9.8739e-1,
    9.8723e-1, 9.8705e-1, 9.8696e-1, 9.8683e-1, 9.8677e-1, 9.8665e-1, 9.8650e-1, 9.8644e-1, 9.8637e-1, 9.8625e-1, 9.8623e-1, 9.8617e-1,
    9.8616e-1, 9.8613e-1, 9.8613e-1, 9.8617e-1, 9.8616e-1, 9.8611e-1, 9.8608e-1, 9.8609e-1, 9.8609e-1, 9.8613e-1, 9.8612e-1, 9.8617e-1,
    9.8616e-1, 9.8616e-1],
   [
    3.8054e1, 3.4248e1, 3.1592e1, 2.9535e1, 2.7865e1, 2.5194e1, 2.3109e1, 2.1421e1, 2.0002e1, 1.8797e1, 1.7759e1, 1.6846e1, 1.6038e1,
    1.4671e1, 1.3556e1, 1.2625e1, 1.1833e1, 1.0287e1, 9.1485e0, 8.2744e0, 7.5806e0, 6.5423e0, 5.7999e0, 5.2393e0, 4.8010e0, 4.4479e0,
    4.1562e0, 3.9113e0, 3.7017e0, 3.3624e0, 3.0993e0, 2.8879e0, 2.7144e0, 2.3897e0, 2.1621e0, 1.9929e0, 1.8619e0, 1.6730e0, 1.5442e0,
    1.4514e0, 1.3824e0, 1.3295e0, 1.2880e0, 1.2546e0, 1.2272e0, 1.1852e0, 1.1549e0, 1.1321e0, 1.1145e0, 1.0849e0, 1.0671e0, 1.0552e0,
    1.0468e0, 1.0350e0, 1.0273e0, 1.0212e0, 1.0163e0, 1.0121e0, 1.0087e0, 1.0057e0, 1.0031e0, 9.9877e-1, 9.9521e-1, 9.9235e-1, 9.8989e-1,
    9.8511e-1, 9.8163e-1, 9.7909e-1, 9.7720e-1, 9.7439e-1, 9.7245e-1, 9.7117e-1, 9.7016e-1, 9.6938e-1, 9.6888e-1, 9.9593e-1, 9.9523e-1,
    9.9461e-1, 9.9365e-1, 9.9288e-1, 9.9225e-1, 9.9182e-1, 9.9081e-1, 9.9024e-1, 9.8979e-1, 9.8946e-1, 9.8890e-1, 9.8856e-1, 9.8831e-1,
    9.8812e-1, 9.8798e-1, 9.8787e-1, 9.8781e-1, 9.8776e-1, 9.8773e-1, 9.8768e-1, 9.8771e-1, 9.8762e-1, 9.8771e-1, 9.8770e-1, 9.8770e-1,
    9.8770e-1, 9.8770e-1, 9.8769e-1, 9.8774e-1, 9.8772e-1, 9.8775e-1, 9.8779e-1, 9.8775e-1, 9.8776e-1, 9.8779e-1, 9.8780e-1, 9.8781e-1,
    9.8777e-1, 9.8777e-1],
   [
    3.1383e1, 2.8583e1, 2.6717e1, 2.5275e1, 2.4085e1, 2.2146e1, 2.0571e1, 1.9256e1, 1.8131e1, 1.7153e1, 1.6295e1, 1.5532e1, 1.4852e1,
    1.3688e1, 1.2721e1, 1.1904e1, 1.1206e1, 9.8247e0, 8.7993e0, 8.0020e0, 7.3657e0, 6.4069e0, 5.7156e0, 5.1917e0, 4.7807e0, 4.4478e0,
    4.1720e0, 3.9396e0, 3.7411e0, 3.4183e0, 3.1658e0, 2.9630e0, 2.7952e0, 2.4790e0, 2.2550e0, 2.0859e0, 1.9541e0, 1.7615e0, 1.6284e0,
    1.5314e0, 1.4580e0, 1.4013e0, 1.3563e0, 1.3196e0, 1.2893e0, 1.2419e0, 1.2067e0, 1.1799e0, 1.1588e0, 1.1219e0, 1.0985e0, 1.0823e0,
    1.0702e0, 1.0529e0, 1.0408e0, 1.0315e0, 1.0240e0, 1.0177e0, 1.0125e0, 1.0079e0, 1.0040e0, 9.9744e-1, 9.9224e-1, 9.8804e-1, 9.8443e-1,
    9.7757e-1, 9.7279e-1, 9.6919e-1, 9.6654e-1, 9.6271e-1, 9.6010e-1, 9.5835e-1, 9.5712e-1, 9.5614e-1, 9.5551e-1, 9.9691e-1, 9.9603e-1,
    9.9523e-1, 9.9405e-1, 9.9321e-1, 9.9260e-1, 9.9207e-1, 9.9123e-1, 9.9063e-1, 9.9028e-1, 9.8992e-1, 9.8942e-1, 9.8912e-1, 9.8894e-1,
    9.8874e-1, 9.8864e-1, 9.8851e-1, 9.8842e-1, 9.8838e-1, 9.8829e-1, 9.8829e-1, 9.8827e-1, 9.8818e-1, 9.8822e-1, 9.8818e-1, 9.8817e-1,
    9.8814e-1, 9.8818e-1, 9.8823e-1, 9.8825e-1, 9.8818e-1, 9.8821e-1, 9.8825e-1, 9.8822e-1, 9.8826e-1, 9.8824e-1, 9.8826e-1, 9.8824e-1,
    9.8826e-1, 9.8826e-1],
   [
    2.3837e1, 2.1973e1, 2.0891e1, 2.0116e1, 1.9471e1, 1.8364e1, 1.7393e1, 1.6517e1, 1.5742e1, 1.5038e1, 1.4403e1, 1.3825e1, 1.3298e1,
    1.2377e1, 1.1595e1, 1.0925e1, 1.0340e1, 9.1684e0, 8.2859e0, 7.5882e0, 7.0265e0, 6.1714e0, 5.5515e0, 5.0777e0, 4.7045e0, 4.4002e0,
    4.1484e0, 3.9361e0, 3.7533e0, 3.4563e0, 3.2230e0, 3.0340e0, 2.8769e0, 2.5785e0, 2.3636e0, 2.1998e0, 2.0700e0, 1.8776e0, 1.7424e0,
    1.6419e0, 1.5644e0, 1.5034e0, 1.4539e0, 1.4129e0, 1.3784e0, 1.3233e0, 1.2812e0, 1.2481e0, 1.2214e0, 1.1727e0, 1.1401e0, 1.1164e0,
    1.0982e0, 1.0717e0, 1.0527e0, 1.0382e0, 1.0267e0, 1.0171e0, 1.0091e0, 1.0024e0, 9.9652e-1, 9.8696e-1, 9.7946e-1, 9.7334e-1, 9.6829e-1,
    9.5887e-1, 9.5235e-1, 9.4765e-1, 9.4406e-1, 9.3918e-1, 9.3596e-1, 9.3383e-1, 9.3232e-1, 9.3129e-1, 9.3055e-1, 9.9723e-1, 9.9611e-1,
    9.9514e-1, 9.9374e-1, 9.9272e-1, 9.9206e-1, 9.9157e-1, 9.9071e-1, 9.9016e-1, 9.8982e-1, 9.8949e-1, 9.8907e-1, 9.8879e-1, 9.8852e-1,
    9.8832e-1, 9.8818e-1, 9.8806e-1, 9.8796e-1, 9.8788e-1, 9.8782e-1, 9.8775e-1, 9.8765e-1, 9.8762e-1, 9.8758e-1, 9.8759e-1, 9.8752e-1,
    9.8751e-1, 9.8759e-1, 9.8758e-1, 9.8757e-1, 9.8755e-1, 9.8761e-1, 9.8761e-1, 9.8761e-1, 9.8760e-1, 9.8761e-1, 9.8759e-1, 9.8758e-1,
    9.8756e-1, 9.8756e-1],
   [
    2.0645e1, 1.9112e1, 1.8351e1, 1.7817e1, 1.7377e1, 1.6592e1, 1.5864e1, 1.5181e1, 1.4549e1, 1.3966e1, 1.3430e1, 1.2938e1, 1.2482e1,
    1.1675e1, 1.0981e1, 1.0380e1, 9.8540e0, 8.7909e0, 7.9807e0, 7.3388e0, 6.8164e0, 6.0208e0, 5.4407e0, 4.9964e0, 4.6443e0, 4.3580e0,
    4.1199e0, 3.9185e0, 3.7454e0, 3.4636e0, 3.2413e0, 3.0609e0, 2.9108e0, 2.6236e0, 2.4157e0, 2.2558e0, 2.1288e0, 1.9392e0, 1.8042e0,
    1.7028e0, 1.6241e0, 1.5612e0, 1.5097e0, 1.4664e0, 1.4297e0, 1.3704e0, 1.3244e0, 1.2876e0, 1.2575e0, 1.2018e0, 1.1633e0, 1.1349e0,
    1.1129e0, 1.0802e0, 1.0569e0, 1.0390e0, 1.0248e0, 1.0132e0, 1.0035e0, 9.9538e-1, 9.8827e-1, 9.7679e-1, 9.6781e-1, 9.6059e-1, 9.5470e-1,
    9.4359e-1, 9.3609e-1, 9.3064e-1, 9.2657e-1, 9.2096e-1, 9.1736e-1, 9.1498e-1, 9.1336e-1, 9.1215e-1, 9.1140e-1, 9.9457e-1, 9.9322e-1,
    9.9211e-1, 9.9046e-1, 9.8940e-1, 9.8855e-1, 9.8793e-1, 9.8696e-1, 9.8642e-1, 9.8600e-1, 9.8568e-1, 9.8514e-1, 9.8471e-1, 9.8436e-1,
    9.8413e-1, 9.8394e-1, 9.8374e-1, 9.8365e-1, 9.8356e-1, 9.8338e-1, 9.8324e-1, 9.8318e-1, 9.8308e-1, 9.8299e-1, 9.8292e-1, 9.8293e-1,
    9.8289e-1, 9.8286e-1, 9.8282e-1, 9.8285e-1, 9.8279e-1, 9.8278e-1, 9.8280e-1, 9.8281e-1, 9.8281e-1, 9.8277e-1, 9.8276e-1, 9.8276e-1,
    9.8274e-1, 9.8274e-1],
   [
    1.9217e1, 1.7864e1, 1.7206e1, 1.6775e1, 1.6423e1, 1.5770e1, 1.5137e1, 1.4534e1, 1.3961e1, 1.3428e1, 1.2938e1, 1.2483e1, 1.2061e1,
    1.1307e1, 1.0655e1, 1.0090e1, 9.5925e0, 8.5841e0, 7.8119e0, 7.1992e0, 6.6999e0, 5.9357e0, 5.3770e0, 4.9484e0, 4.6087e0, 4.3315e0,
    4.1010e0, 3.9056e0, 3.7383e0, 3.4639e0, 3.2472e0, 3.0711e0, 2.9246e0, 2.6438e0, 2.4400e0, 2.2828e0, 2.1579e0, 1.9705e0, 1.8362e0,
    1.7354e0, 1.6563e0, 1.5927e0, 1.5403e0, 1.4962e0, 1.4583e0, 1.3971e0, 1.3489e0, 1.3104e0, 1.2784e0, 1.2186e0, 1.1767e0, 1.1455e0,
    1.1210e0, 1.0846e0, 1.0585e0, 1.0386e0, 1.0229e0, 1.0101e0, 9.9943e-1, 9.9044e-1, 9.8279e-1, 9.7024e-1, 9.6040e-1, 9.5262e-1,
    9.4626e-1, 9.3436e-1, 9.2635e-1, 9.2061e-1, 9.1628e-1, 9.1044e-1, 9.0679e-1, 9.0434e-1, 9.0267e-1, 9.0155e-1, 9.0075e-1, 9.9339e-1,
    9.9198e-1, 9.9087e-1, 9.8913e-1, 9.8804e-1, 9.8714e-1, 9.8653e-1, 9.8561e-1, 9.8502e-1, 9.8456e-1, 9.8425e-1, 9.8370e-1, 9.8325e-1,
    9.8291e-1, 9.8266e-1, 9.8245e-1, 9.8222e-1, 9.8207e-1, 9.8200e-1, 9.8181e-1, 9.8171e-1, 9.8161e-1, 9.8152e-1, 9.8140e-1, 9.8130e-1,
    9.8133e-1, 9.8124e-1, 9.8124e-1, 9.8121e-1, 9.8119e-1, 9.8120e-1, 9.8114e-1, 9.8116e-1, 9.8118e-1, 9.8110e-1, 9.8114e-1, 9.8107e-1,
    9.8108e-1, 9.8107e-1, 9.8107e-1],
   [
    1.6304e1, 1.5422e1, 1.5012e1, 1.4744e1, 1.4513e1, 1.4055e1, 1.3572e1, 1.3095e1, 1.2632e1, 1.2196e1, 1.1791e1, 1.1409e1, 1.1052e1,
    1.0412e1, 9.8551e0, 9.3655e0, 8.9379e0, 8.0571e0, 7.3787e0, 6.8390e0, 6.3950e0, 5.7126e0, 5.2098e0, 4.8214e0, 4.5120e0, 4.2579e0,
    4.0451e0, 3.8648e0, 3.7087e0, 3.4525e0, 3.2497e0, 3.0845e0, 2.9462e0, 2.6805e0, 2.4879e0, 2.3394e0, 2.2209e0, 2.0426e0, 1.9137e0,
    1.8153e0, 1.7370e0, 1.6730e0, 1.6191e0, 1.5732e0, 1.5333e0, 1.4673e0, 1.4143e0, 1.3706e0, 1.3338e0, 1.2627e0, 1.2109e0, 1.1714e0,
    1.1399e0, 1.0929e0, 1.0594e0, 1.0339e0, 1.0142e0, 9.9839e-1, 9.8538e-1, 9.7457e-1, 9.6534e-1, 9.5059e-1, 9.3932e-1, 9.3041e-1,
    9.2322e-1, 9.1012e-1, 9.0151e-1, 8.9532e-1, 8.9077e-1, 8.8454e-1, 8.8057e-1, 8.7794e-1, 8.7606e-1, 8.7477e-1, 8.7392e-1, 9.9196e-1,
    9.9025e-1, 9.8884e-1, 9.8678e-1, 9.8539e-1, 9.8442e-1, 9.8379e-1, 9.8274e-1, 9.8216e-1, 9.8187e-1, 9.8169e-1, 9.8136e-1, 9.8115e-1,
    9.8104e-1, 9.8082e-1, 9.8074e-1, 9.8067e-1, 9.8061e-1, 9.8053e-1, 9.8035e-1, 9.8025e-1, 9.8023e-1, 9.8013e-1, 9.8004e-1, 9.7993e-1,
    9.7995e-1, 9.7998e-1, 9.8004e-1, 9.8006e-1, 9.8007e-1, 9.8004e-1, 9.7999e-1, 9.7996e-1, 9.7992e-1, 9.7993e-1, 9.7984e-1, 9.7971e-1,
    9.7958e-1, 9.7950e-1, 9.7950e-1],
   [
    1.4735e1, 1.4059e1, 1.3789e1, 1.3619e1, 1.3448e1, 1.3093e1, 1.2693e1, 1.2282e1, 1.1879e1, 1.1488e1, 1.1124e1, 1.0785e1, 1.0467e1,
    9.8885e0, 9.3826e0, 8.9384e0, 8.5467e0, 7.7407e0, 7.1175e0, 6.6190e0, 6.2093e0, 5.5759e0, 5.1062e0, 4.7424e0, 4.4504e0, 4.2110e0,
    4.0090e0, 3.8372e0, 3.6885e0, 3.4430e0, 3.2483e0, 3.0891e0, 2.9558e0, 2.6999e0, 2.5142e0, 2.3718e0, 2.2578e0, 2.0860e0, 1.9607e0,
    1.8642e0, 1.7868e0, 1.7227e0, 1.6685e0, 1.6216e0, 1.5807e0, 1.5118e0, 1.4558e0, 1.4090e0, 1.3692e0, 1.2908e0, 1.2328e0, 1.1876e0,
    1.1515e0, 1.0971e0, 1.0581e0, 1.0287e0, 1.0059e0, 9.8773e-1, 9.7281e-1, 9.6044e-1, 9.4991e-1, 9.3321e-1, 9.2051e-1, 9.1051e-1,
    9.0261e-1, 8.8840e-1, 8.7923e-1, 8.7298e-1, 8.6842e-1, 8.6268e-1, 8.5938e-1, 8.5736e-1, 8.5621e-1, 8.5542e-1, 8.5511e-1, 9.8872e-1,
    9.8732e-1, 9.8621e-1, 9.8468e-1, 9.8364e-1, 9.8296e-1, 9.8245e-1, 9.8164e-1, 9.8114e-1, 9.8075e-1, 9.8044e-1, 9.7988e-1, 9.7939e-1,
    9.7898e-1, 9.7871e-1, 9.7839e-1, 9.7826e-1, 9.7816e-1, 9.7805e-1, 9.7793e-1, 9.7781e-1, 9.7772e-1, 9.7774e-1, 9.7771e-1, 9.7765e-1,
    9.7761e-1, 9.7760e-1, 9.7755e-1, 9.7752e-1, 9.7754e-1, 9.7753e-1, 9.7757e-1, 9.7754e-1, 9.7759e-1, 9.7753e-1, 9.7752e-1, 9.7756e-1,
    9.7750e-1, 9.7742e-1, 9.7742e-1]]

/-- `interpolant_` of `BremsElectronScreening` (Bremsstrahlung.cxx 434-436 and 446-448). -/
noncomputable def aInterp : Except ItpErr Interp2 := interp2OfArrays aLogZ (List.replicate aLogZ.length aEnergies) aCorrection 2 false 2 false

/-- `photopair_KM_Z` (ParamTables.cxx 18526-18535). -/
noncomputable def kmZ : List ℝ :=
  [
   1, 2, 3, 4, 5, 6, 7, 8, 9, 10, 11, 12, 13, 14, 15, 16, 17, 18, 19, 20, 21, 22, 23, 24, 25, 26, 27, 28, 29, 30, 31, 32, 33, 34, 35, 36,
   37, 38, 39, 40, 41, 42, 43, 44, 45, 46, 47, 48, 49, 50, 51, 52, 53, 54, 55, 56, 57, 58, 59, 60, 61, 62, 63, 64, 65, 66, 67, 68, 69, 70,
   71, 72, 73, 74, 75, 76, 77, 78, 79, 80, 81, 82, 83, 84, 85, 86, 87, 88, 89, 90, 91, 92, 93, 94, 95, 96, 97, 98, 99, 100]

/-- `photopair_KM_energies` (ParamTables.cxx 18519-18524). -/
noncomputable def kmEnergies : List ℝ :=
  [
   1.0219978922, 1.50000734, 2.00000564, 2.99999313, 3.99998256, 5.00001044, 6.00000318, 7.99998767, 10.00004907, 14.99999698, 19.99995453,
   30.00007855, 40.00002184, 49.99984973, 59.99972627, 80.00026923, 99.9999814]

/-- `photopair_KM_cross` (ParamTables.cxx 18537-19038). -/
noncomputable def kmCross : List (List ℝ) :=
  [[
    2.80260456e-45, 4.42998175e-5, 1.77000146e-4, 5.50997658e-4, 9.94003331e-4, 1.43000119e-3, 1.84999933e-3, 2.63999040e-3, 3.30999037e-3,
    4.60998812e-3, 5.61002558e-3, 7.08000971e-3, 8.13003541e-3, 8.97995866e-3, 9.64997456e-3, 1.07000165e-2, 1.16000021e-2],
   [
    2.80260456e-45, 1.77000146e-4, 7.06999924e-4, 2.13000703e-3, 3.64999311e-3, 5.10997892e-3, 6.43997900e-3, 8.87000428e-3, 1.09000271e-2,
    1.46999674e-2, 1.79000817e-2, 2.22000664e-2, 2.53000223e-2, 2.77000794e-2, 2.96000272e-2, 3.26000975e-2, 3.51001456e-2],
   [
    2.80260456e-45, 3.97001698e-4, 1.59000201e-3, 4.73000036e-3, 7.97000627e-3, 1.10000001e-2, 1.36999924e-2, 1.86000688e-2, 2.27000080e-2,
    3.02999263e-2, 3.65001102e-2, 4.50001255e-2, 5.09999820e-2, 5.55001253e-2, 5.95999824e-2, 6.53002117e-2, 6.98000886e-2],
   [
    2.80260456e-45, 7.09996867e-4, 2.84000348e-3, 8.33001518e-3, 1.39999713e-2, 1.90999416e-2, 2.37999928e-2, 3.19999800e-2, 3.87998073e-2,
    5.18998178e-2, 6.17000832e-2, 7.57997716e-2, 8.57996802e-2, 9.34003674e-2, 9.92999710e-2, 1.08000438e-1, 1.15000362e-1],
   [
    2.80260456e-45, 1.10999474e-3, 4.44000401e-3, 1.29999470e-2, 2.15000504e-2, 2.94000178e-2, 3.63998728e-2, 4.87997543e-2, 5.89998723e-2,
    7.87001671e-2, 9.32995495e-2, 1.13999639e-1, 1.28000642e-1, 1.40000400e-1, 1.48999847e-1, 1.61999829e-1, 1.73000637e-1],
   [
    2.80260456e-45, 1.60000264e-3, 6.39998265e-3, 1.86000688e-2, 3.08000181e-2, 4.18999770e-2, 5.18998178e-2, 6.93000258e-2, 8.36001470e-2,
    1.10999454e-1, 1.30999732e-1, 1.60000234e-1, 1.79999717e-1, 1.96000121e-1, 2.07999417e-1, 2.26000063e-1, 2.39999125e-1],
   [
    2.80260456e-45, 2.19000818e-3, 8.71003038e-3, 2.53000223e-2, 4.17999557e-2, 5.67000606e-2, 7.01001742e-2, 9.31997723e-2, 1.11999598e-1,
    1.48999847e-1, 1.74999878e-1, 2.13999842e-1, 2.39999125e-1, 2.61001272e-1, 2.76001218e-1, 3.01001509e-1, 3.19001332e-1],
   [
    2.80260456e-45, 2.86001045e-3, 1.14000219e-2, 3.29999247e-2, 5.43000571e-2, 7.37001828e-2, 9.08995708e-2, 1.21000573e-1, 1.45000223e-1,
    1.91000354e-1, 2.26998924e-1, 2.75001150e-1, 3.07998613e-1, 3.34001432e-1, 3.54999109e-1, 3.85999193e-1, 4.09000050e-1],
   [
    2.80260456e-45, 3.64000581e-3, 1.43999578e-2, 4.17999557e-2, 6.86997307e-2, 9.29001517e-2, 1.13999639e-1, 1.52000723e-1, 1.80999683e-1,
    2.39999125e-1, 2.82999542e-1, 3.45000297e-1, 3.88998419e-1, 4.20000238e-1, 4.45998362e-1, 4.84998248e-1, 5.12000335e-1],
   [
    2.80260456e-45, 4.49001157e-3, 1.77999434e-2, 5.15001788e-2, 8.43002878e-2, 1.13999639e-1, 1.40999350e-1, 1.84999899e-1, 2.23999827e-1,
    2.93998680e-1, 3.47000173e-1, 4.21001029e-1, 4.72999948e-1, 5.12000335e-1, 5.41999608e-1, 5.87000270e-1, 6.21002606e-1],
   [
    2.80260456e-45, 5.45998083e-3, 2.16000424e-2, 6.23002401e-2, 1.02000252e-1, 1.38000220e-1, 1.68999419e-1, 2.23999827e-1, 2.69001049e-1,
    3.53999422e-1, 4.16000008e-1, 5.02997540e-1, 5.64999745e-1, 6.09997756e-1, 6.46999343e-1, 7.02001316e-1, 7.41003448e-1],
   [
    2.80260456e-45, 6.52000589e-3, 2.58000203e-2, 7.40999812e-2, 1.21000573e-1, 1.63999812e-1, 2.01000075e-1, 2.64998795e-1, 3.18001239e-1,
    4.18001608e-1, 4.91000565e-1, 5.93997600e-1, 6.65997075e-1, 7.20002928e-1, 7.62997900e-1, 8.27000483e-1, 8.74004286e-1],
   [
    2.80260456e-45, 7.67996722e-3, 3.02999263e-2, 8.69997529e-2, 1.41999747e-1, 1.91000354e-1, 2.34999945e-1, 3.10000924e-1, 3.72000530e-1,
    4.89001364e-1, 5.72999749e-1, 6.91999532e-1, 7.77003830e-1, 8.39003836e-1, 8.88998261e-1, 9.63001798e-1, 1.01999732e0],
   [
    2.80260456e-45, 8.93999723e-3, 3.51999717e-2, 1.01000481e-1, 1.63999812e-1, 2.21999533e-1, 2.73999225e-1, 3.59001038e-1, 4.28999296e-1,
    5.62997551e-1, 6.61000951e-1, 7.99003462e-1, 8.95001397e-1, 9.69999231e-1, 1.01999732e0, 1.10999998e0, 1.16999561e0],
   [
    2.80260456e-45, 1.03000143e-2, 4.05001338e-2, 1.15999430e-1, 1.88000623e-1, 2.54000257e-1, 3.11000736e-1, 4.11000849e-1, 4.91000565e-1,
    6.43000357e-1, 7.54998135e-1, 9.12999451e-1, 1.01999732e0, 1.09999980e0, 1.16999561e0, 1.25999783e0, 1.33000141e0],
   [
    2.80260456e-45, 1.17999498e-2, 4.61997912e-2, 1.32000443e-1, 2.14999409e-1, 2.88001382e-1, 3.53999422e-1, 4.64999011e-1, 5.57000022e-1,
    7.29001128e-1, 8.55003258e-1, 1.03000123e0, 1.15999999e0, 1.24999556e0, 1.31999771e0, 1.42999364e0, 1.51000053e0],
   [
    2.80260456e-45, 1.34999405e-2, 5.23999312e-2, 1.48999847e-1, 2.43000932e-1, 3.25000031e-1, 4.00000293e-1, 5.24001884e-1, 6.26003072e-1,
    8.21001781e-1, 9.61000836e-1, 1.15999999e0, 1.29999446e0, 1.39999687e0, 1.49000578e0, 1.59999419e0, 1.69000249e0],
   [
    2.80260456e-45, 1.51000081e-2, 5.88002013e-2, 1.67000245e-1, 2.70999040e-1, 3.64000514e-1, 4.46998518e-1, 5.85997357e-1, 7.00003461e-1,
    9.16997989e-1, 1.07000145e0, 1.29999446e0, 1.44999484e0, 1.56000652e0, 1.65000777e0, 1.77999401e0, 1.87999666e0],
   [
    2.80260456e-45, 1.69000280e-2, 6.55999726e-2, 1.86999376e-1, 3.01999475e-1, 4.04999276e-1, 4.95999679e-1, 6.50997160e-1, 7.77999031e-1,
    1.01999732e0, 1.18999606e0, 1.43999552e0, 1.60999327e0, 1.72999756e0, 1.83000738e0, 1.96999302e0, 2.08000438e0],
   [
    2.80260456e-45, 1.87999701e-2, 7.29996962e-2, 2.06999273e-1, 3.34001432e-1, 4.48000917e-1, 5.49998350e-1, 7.20002928e-1, 8.58996871e-1,
    1.13000268e0, 1.31999771e0, 1.57999234e0, 1.77000080e0, 1.90999381e0, 2.02000503e0, 2.17998937e0, 2.30000202e0],
   [
    2.80260456e-45, 2.08999189e-2, 8.11001880e-2, 2.29999073e-1, 3.71001193e-1, 4.95999679e-1, 6.08998180e-1, 7.95002516e-1, 9.45000332e-1,
    1.23999829e0, 1.44999484e0, 1.75000737e0, 1.95000122e0, 2.10000558e0, 2.22000623e0, 2.38999196e0, 2.52000277e0],
   [
    2.80260456e-45, 2.32000696e-2, 8.94004110e-2, 2.51999040e-1, 4.06000860e-1, 5.42997806e-1, 6.66996820e-1, 8.71002876e-1, 1.03999926e0,
    1.34999380e0, 1.57999234e0, 1.90999381e0, 2.12999578e0, 2.28999584e0, 2.42999694e0, 2.61998869e0, 2.75999812e0],
   [
    2.80260456e-45, 2.54999191e-2, 9.79997844e-2, 2.76001218e-1, 4.44000318e-1, 5.90999564e-1, 7.28003080e-1, 9.48996660e-1, 1.13000268e0,
    1.46999647e0, 1.71999262e0, 2.08000438e0, 2.32000653e0, 2.48999325e0, 2.64000286e0, 2.83998849e0, 2.99999313e0],
   [
    2.80260456e-45, 2.80000215e-2, 1.06999620e-1, 3.01001509e-1, 4.84000180e-1, 6.45003201e-1, 7.92003079e-1, 1.03000123e0, 1.22999487e0,
    1.59999419e0, 1.87000293e0, 2.24999951e0, 2.52000277e0, 2.71000370e0, 2.85999535e0, 3.08999663e0, 3.26000914e0],
   [
    2.80260456e-45, 3.07000806e-2, 1.17000157e-1, 3.26998400e-1, 5.24001884e-1, 6.97997331e-1, 8.58001012e-1, 1.12000147e0, 1.33000141e0,
    1.74000850e0, 2.03000854e0, 2.45000484e0, 2.71999489e0, 2.92999290e0, 3.10999152e0, 3.33999730e0, 3.53000752e0],
   [
    2.80260456e-45, 3.31998474e-2, 1.26000425e-1, 3.50999668e-1, 5.64999745e-1, 7.54002195e-1, 9.20995619e-1, 1.19999813e0, 1.42999364e0,
    1.87000293e0, 2.18999662e0, 2.62998988e0, 2.94000123e0, 3.15999359e0, 3.32999233e0, 3.61000804e0, 3.79001509e0],
   [
    2.80260456e-45, 3.61998610e-2, 1.37000596e-1, 3.80998439e-1, 6.10998973e-1, 8.14003999e-1, 1.00000000e0, 1.28999714e0, 1.53999628e0,
    2.00999051e0, 2.35001098e0, 2.83998849e0, 3.15999359e0, 3.40001553e0, 3.59998616e0, 3.88001880e0, 4.08001229e0],
   [
    2.80260456e-45, 3.91999425e-2, 1.48000445e-1, 4.09999229e-1, 6.59001150e-1, 8.76998497e-1, 1.07000145e0, 1.38999479e0, 1.65000777e0,
    2.15000464e0, 2.52000277e0, 3.04999515e0, 3.39000027e0, 3.63998660e0, 3.84998788e0, 4.16002049e0, 4.38000559e0],
   [
    2.80260456e-45, 4.22999236e-2, 1.58000039e-1, 4.38998185e-1, 7.02998866e-1, 9.37001871e-1, 1.14000198e0, 1.47999691e0, 1.77000080e0,
    2.30000202e0, 2.69999521e0, 3.23998921e0, 3.61998543e0, 3.90001344e0, 4.11998697e0, 4.43998057e0, 4.67000434e0],
   [
    2.80260456e-45, 4.56998620e-2, 1.71000295e-1, 4.70998674e-1, 7.54998135e-1, 1.00000000e0, 1.23999829e0, 1.59999419e0, 1.89000599e0,
    2.45999668e0, 2.87999915e0, 3.46000488e0, 3.88001880e0, 4.16002049e0, 4.40997932e0, 4.74001358e0, 4.99002041e0],
   [
    2.80260456e-45, 4.93000591e-2, 1.82999840e-1, 5.01997570e-1, 8.06001238e-1, 1.07000145e0, 1.31999771e0, 1.70000297e0, 2.02000503e0,
    2.61998869e0, 3.05998496e0, 3.69998957e0, 4.11998697e0, 4.43998057e0, 4.68998789e0, 5.06001779e0, 5.31998243e0],
   [
    2.80260456e-45, 5.30001784e-2, 1.96000121e-1, 5.36000599e-1, 8.58001012e-1, 1.14000198e0, 1.39999687e0, 1.81000571e0, 2.14000893e0,
    2.77999742e0, 3.25001626e0, 3.91001027e0, 4.39000339e0, 4.72000567e0, 4.98000054e0, 5.35001840e0, 5.63000314e0],
   [
    2.80260456e-45, 5.68999965e-2, 2.09999527e-1, 5.70997756e-1, 9.12999451e-1, 1.20999956e0, 1.47999691e0, 1.90999381e0, 2.27000038e0,
    2.96000217e0, 3.46000488e0, 4.16002049e0, 4.63997974e0, 5.00001044e0, 5.25999460e0, 5.65997797e0, 5.97001834e0],
   [
    2.80260456e-45, 6.09001281e-2, 2.23000782e-1, 6.05997148e-1, 9.69999231e-1, 1.27999990e0, 1.57000688e0, 2.03000854e0, 2.40000303e0,
    3.12999060e0, 3.65998848e0, 4.40997932e0, 4.92000723e0, 5.29000928e0, 5.58000683e0, 5.98999154e0, 6.30000231e0],
   [
    2.80260456e-45, 6.49998706e-2, 2.38001096e-1, 6.43000357e-1, 1.03000123e0, 1.34999380e0, 1.66000398e0, 2.14000893e0, 2.53998963e0,
    3.29999185e0, 3.86001087e0, 4.65001293e0, 5.20000715e0, 5.57002755e0, 5.88001904e0, 6.34996944e0, 6.67000093e0],
   [
    2.80260456e-45, 6.96000495e-2, 2.52998935e-1, 6.81002025e-1, 1.09000251e0, 1.42999364e0, 1.75000737e0, 2.25998912e0, 2.68000859e0,
    3.48999394e0, 4.06998779e0, 4.90998065e0, 5.47000757e0, 5.86000232e0, 6.20999444e0, 6.67000093e0, 7.01001612e0],
   [
    2.80260456e-45, 7.40000137e-2, 2.67999544e-1, 7.20997218e-1, 1.14999777e0, 1.51000053e0, 1.85000807e0, 2.37999884e0, 2.83000931e0,
    3.66999390e0, 4.29001402e0, 5.16001765e0, 5.75000083e0, 6.20000439e0, 6.55999604e0, 7.06003494e0, 7.39001674e0],
   [
    2.80260456e-45, 7.89997967e-2, 2.84000296e-1, 7.62997900e-1, 1.20999956e0, 1.58999361e0, 1.95000122e0, 2.49999817e0, 2.96999420e0,
    3.86998256e0, 4.50001171e0, 5.44000511e0, 6.03997577e0, 6.53001996e0, 6.86997179e0, 7.40000000e0, 7.75998189e0],
   [
    2.80260456e-45, 8.39998723e-2, 3.01001509e-1, 8.05002416e-1, 1.27999990e0, 1.67999363e0, 2.05000042e0, 2.64000286e0, 3.13999121e0,
    4.05998793e0, 4.72000567e0, 5.72000683e0, 6.34996944e0, 6.85000923e0, 7.21996424e0, 7.78999330e0, 8.15001689e0],
   [
    2.80260456e-45, 8.89999029e-2, 3.19001332e-1, 8.49999090e-1, 1.34000052e0, 1.77000080e0, 2.16000384e0, 2.77000742e0, 3.29000801e0,
    4.26998366e0, 4.98000054e0, 5.97999660e0, 6.66000343e0, 7.17003116e0, 7.56997678e0, 8.15996598e0, 8.53000545e0],
   [
    2.80260456e-45, 9.43003856e-2, 3.36001384e-1, 8.95001397e-1, 1.41000042e0, 1.86000653e0, 2.25998912e0, 2.90999103e0, 3.44998540e0,
    4.47998635e0, 5.20000715e0, 6.28000012e0, 6.98000756e0, 7.49997735e0, 7.91001755e0, 8.52003118e0, 8.93003219e0],
   [
    2.80260456e-45, 9.98995598e-2, 3.53999422e-1, 9.42000004e-1, 1.47999691e0, 1.95000122e0, 2.35999618e0, 3.04999515e0, 3.59998616e0,
    4.67000434e0, 5.46000661e0, 6.55999604e0, 7.29996826e0, 7.86002667e0, 8.27997542e0, 8.92003616e0, 9.35003419e0],
   [
    2.80260456e-45, 1.05999596e-1, 3.72998829e-1, 9.92002154e-1, 1.56000652e0, 2.04000039e0, 2.48000357e0, 3.17999619e0, 3.76000392e0,
    4.88002333e0, 5.70002180e0, 6.82996808e0, 7.63001644e0, 8.18996808e0, 8.62996112e0, 9.31997550e0, 9.75997657e0],
   [
    2.80260456e-45, 1.11999598e-1, 3.92998297e-1, 1.03000123e0, 1.62999998e0, 2.12999578e0, 2.58000155e0, 3.31998412e0, 3.93999715e0,
    5.09001104e0, 5.94999274e0, 7.13998018e0, 7.96996419e0, 8.53999139e0, 9.01004440e0, 9.73998911e0, 1.02000233e1],
   [
    2.80260456e-45, 1.18000077e-1, 4.12999044e-1, 1.07999888e0, 1.70000297e0, 2.22999646e0, 2.68999679e0, 3.46000488e0, 4.10001241e0,
    5.30999025e0, 6.20000439e0, 7.44996996e0, 8.31000325e0, 8.89998864e0, 9.39004420e0, 1.02000233e1, 1.05999576e1],
   [
    2.80260456e-45, 1.25000193e-1, 4.34999673e-1, 1.14000198e0, 1.77999401e0, 2.33000404e0, 2.82000878e0, 3.61000804e0, 4.26998366e0,
    5.52001181e0, 6.47002518e0, 7.75998189e0, 8.65995910e0, 9.27998565e0, 9.79997662e0, 1.05000498e1, 1.10000520e1],
   [
    2.80260456e-45, 1.32000443e-1, 4.56001126e-1, 1.18999606e0, 1.86000653e0, 2.44000478e0, 2.94000123e0, 3.74001641e0, 4.44998177e0,
    5.77997871e0, 6.73003268e0, 8.06997190e0, 9.01004440e0, 9.65996476e0, 1.02000233e1, 1.10000520e1, 1.15000341e1],
   [
    2.80260456e-45, 1.39000187e-1, 4.79002242e-1, 1.24999556e0, 1.94000393e0, 2.54999143e0, 3.05998496e0, 3.90001344e0, 4.63997974e0,
    5.98999154e0, 6.98000756e0, 8.39998567e0, 9.36997099e0, 1.00000491e1, 1.05000498e1, 1.13999617e1, 1.20000402e1],
   [
    2.80260456e-45, 1.45999804e-1, 5.00999588e-1, 1.29999446e0, 2.02000503e0, 2.65000095e0, 3.18999708e0, 4.05001263e0, 4.81998107e0,
    6.20999444e0, 7.27002696e0, 8.73999834e0, 9.72004259e0, 1.05000498e1, 1.10000520e1, 1.19000190e1, 1.25000169e1],
   [
    2.80260456e-45, 1.52999596e-1, 5.23001995e-1, 1.34999380e0, 2.11000433e0, 2.75999812e0, 3.31998412e0, 4.25000432e0, 5.01002047e0,
    6.47002518e0, 7.55999100e0, 9.06997946e0, 1.01000462e1, 1.08999696e1, 1.13999617e1, 1.23000091e1, 1.30000084e1],
   [
    2.80260456e-45, 1.61999829e-1, 5.48998264e-1, 1.41000042e0, 2.17998937e0, 2.86999417e0, 3.43999494e0, 4.42000134e0, 5.18998081e0,
    6.70001657e0, 7.82998035e0, 9.39004420e0, 1.05000498e1, 1.12999692e1, 1.19000190e1, 1.26999747e1, 1.35000042e1],
   [
    2.80260456e-45, 1.69999463e-1, 5.71997877e-1, 1.46999647e0, 2.28001039e0, 2.97999016e0, 3.55999806e0, 4.56998535e0, 5.38000875e0,
    6.93000129e0, 8.12999249e0, 9.75002647e0, 1.08999696e1, 1.17000136e1, 1.23000091e1, 1.32000418e1, 1.40000374e1],
   [
    2.80260456e-45, 1.78000308e-1, 5.98002706e-1, 1.53000346e0, 2.37000011e0, 3.09999345e0, 3.71998635e0, 4.74997806e0, 5.58000683e0,
    7.19999261e0, 8.40998760e0, 1.01000462e1, 1.12999692e1, 1.21000550e1, 1.26999747e1, 1.37000571e1, 1.44000258e1],
   [
    2.80260456e-45, 1.86999376e-1, 6.26999209e-1, 1.59999419e0, 2.45999668e0, 3.21999562e0, 3.84998788e0, 4.90998065e0, 5.76998800e0,
    7.43003077e0, 8.68997446e0, 1.05000498e1, 1.16000569e1, 1.25000169e1, 1.32000418e1, 1.43000066e1, 1.49999970e1],
   [
    2.80260456e-45, 1.96000121e-1, 6.53998645e-1, 1.66999394e0, 2.56000702e0, 3.32999233e0, 3.97999276e0, 5.07999359e0, 5.97001834e0,
    7.68000348e0, 8.98997439e0, 1.08999696e1, 1.20000402e1, 1.29000347e1, 1.36000028e1, 1.48000417e1, 1.54000384e1],
   [
    2.80260456e-45, 2.05999817e-1, 6.81997014e-1, 1.72999756e0, 2.66001031e0, 3.46000488e0, 4.13001071e0, 5.25999460e0, 6.17000717e0,
    7.93997399e0, 9.29001344e0, 1.11999577e1, 1.24000437e1, 1.33999369e1, 1.40000374e1, 1.52999567e1, 1.59000142e1],
   [
    2.80260456e-45, 2.14999409e-1, 7.11002026e-1, 1.80000600e0, 2.74999749e0, 3.57998997e0, 4.26998366e0, 5.44000511e0, 6.37000338e0,
    8.19996594e0, 9.59997025e0, 1.15000341e1, 1.29000347e1, 1.38000194e1, 1.45000196e1, 1.58000009e1, 1.64999937e1],
   [
    2.80260456e-45, 2.25001097e-1, 7.41997059e-1, 1.87000293e0, 2.85000287e0, 3.70999304e0, 4.40997932e0, 5.60999596e0, 6.56997482e0,
    8.49000849e0, 9.89995290e0, 1.19000190e1, 1.32000418e1, 1.41999721e1, 1.49999970e1, 1.63000797e1, 1.69999432e1],
   [
    2.80260456e-45, 2.34999945e-1, 7.72000563e-1, 1.94000393e0, 2.95001425e0, 3.82998160e0, 4.55998804e0, 5.77997871e0, 6.76999264e0,
    8.73004042e0, 1.02000233e1, 1.23000091e1, 1.37000571e1, 1.45999777e1, 1.54000384e1, 1.68000187e1, 1.74999846e1],
   [
    2.80260456e-45, 2.46000921e-1, 8.03000454e-1, 2.00999051e0, 3.04999515e0, 3.95998406e0, 4.71000985e0, 5.97001834e0, 6.98999611e0,
    9.01004440e0, 1.04000436e1, 1.26999747e1, 1.40999324e1, 1.50999284e1, 1.60000204e1, 1.73000605e1, 1.80999649e1],
   [
    2.80260456e-45, 2.55999446e-1, 8.37001012e-1, 2.08000438e0, 3.14999227e0, 4.10001241e0, 4.85000628e0, 6.16001985e0, 7.21000756e0,
    9.27998565e0, 1.08000418e1, 1.30000084e1, 1.45000196e1, 1.54999996e1, 1.64999937e1, 1.78000275e1, 1.85999706e1],
   [
    2.80260456e-45, 2.67999544e-1, 8.70001799e-1, 2.17000615e0, 3.27000005e0, 4.22002056e0, 5.02000033e0, 6.34000781e0, 7.42000700e0,
    9.53996675e0, 1.11000543e1, 1.33999369e1, 1.49999970e1, 1.60000204e1, 1.69999432e1, 1.82999806e1, 1.91999946e1],
   [
    2.80260456e-45, 2.79998789e-1, 9.03996310e-1, 2.24000926e0, 3.38001450e0, 4.35999103e0, 5.16001765e0, 6.54001854e0, 7.64001831e0,
    9.84004220e0, 1.13999617e1, 1.39000161e1, 1.54000384e1, 1.64999937e1, 1.74999846e1, 1.88999637e1, 1.97999616e1],
   [
    2.80260456e-45, 2.90001263e-1, 9.37995620e-1, 2.32000653e0, 3.48999394e0, 4.50001171e0, 5.32999340e0, 6.73003268e0, 7.87001525e0,
    1.01000462e1, 1.18000055e1, 1.43000066e1, 1.59000142e1, 1.68999388e1, 1.79999684e1, 1.93999405e1, 2.02999820e1],
   [
    2.80260456e-45, 3.01999475e-1, 9.74997863e-1, 2.40000303e0, 3.59998616e0, 4.63997974e0, 5.47000757e0, 6.93998768e0, 8.11001729e0,
    1.04000436e1, 1.21000550e1, 1.47000368e1, 1.63000797e1, 1.74999846e1, 1.84999865e1, 1.99999545e1, 2.07999379e1],
   [
    2.80260456e-45, 3.15000832e-1, 1.00999967e0, 2.48000357e0, 3.70999304e0, 4.77999739e0, 5.65002517e0, 7.12999120e0, 8.34998715e0,
    1.06999600e1, 1.25000169e1, 1.49999970e1, 1.67000214e1, 1.79999684e1, 1.90000194e1, 2.04998998e1, 2.13999803e1],
   [
    2.80260456e-45, 3.28000548e-1, 1.04999983e0, 2.56000702e0, 3.82998160e0, 4.92000723e0, 5.80999668e0, 7.34000850e0, 8.57996642e0,
    1.08999696e1, 1.29000347e1, 1.54000384e1, 1.72000106e1, 1.84999865e1, 1.94999129e1, 2.10999358e1, 2.19999460e1],
   [
    2.80260456e-45, 3.41000955e-1, 1.07999888e0, 2.62998988e0, 3.93999715e0, 5.06999585e0, 5.98999154e0, 7.55999100e0, 8.84002761e0,
    1.12999692e1, 1.32000418e1, 1.59000142e1, 1.76999179e1, 1.90000194e1, 2.01000037e1, 2.16999509e1, 2.26000021e1],
   [
    2.80260456e-45, 3.54999109e-1, 1.12000147e0, 2.71999489e0, 4.05998793e0, 5.22001356e0, 6.13997088e0, 7.75998189e0, 9.07996193e0,
    1.15000341e1, 1.36000028e1, 1.63000797e1, 1.81999710e1, 1.94999129e1, 2.05999778e1, 2.21999492e1, 2.30999395e1],
   [
    2.80260456e-45, 3.68999496e-1, 1.15999999e0, 2.80998740e0, 4.19998099e0, 5.37001123e0, 6.34000781e0, 7.96000796e0, 9.31000846e0,
    1.18000055e1, 1.39000161e1, 1.67000214e1, 1.85999706e1, 1.99999545e1, 2.10999358e1, 2.27999878e1, 2.37001174e1],
   [
    2.80260456e-45, 3.82001784e-1, 1.19999813e0, 2.89999786e0, 4.31000903e0, 5.52001181e0, 6.51000354e0, 8.15996598e0, 9.54998897e0,
    1.21000550e1, 1.43000066e1, 1.71000263e1, 1.91000318e1, 2.04998998e1, 2.15999284e1, 2.32999217e1, 2.43000887e1],
   [
    2.80260456e-45, 3.96999602e-1, 1.23999829e0, 2.98998987e0, 4.43000184e0, 5.67999300e0, 6.68001344e0, 8.39998567e0, 9.79997662e0,
    1.24000437e1, 1.45999777e1, 1.74999846e1, 1.94999129e1, 2.09999488e1, 2.21999492e1, 2.39000368e1, 2.50001044e1],
   [
    2.80260456e-45, 4.11000849e-1, 1.27999990e0, 3.08000124e0, 4.56998535e0, 5.83001749e0, 6.86001755e0, 8.59001086e0, 1.01000462e1,
    1.28000618e1, 1.48999819e1, 1.79999684e1, 2.01000037e1, 2.14999369e1, 2.26998882e1, 2.44999236e1, 2.56999745e1],
   [
    2.80260456e-45, 4.28000892e-1, 1.31999771e0, 3.14999227e0, 4.68000885e0, 5.97999660e0, 7.06003494e0, 8.81998351e0, 1.02999599e1,
    1.30999708e1, 1.52999567e1, 1.83999878e1, 2.05999778e1, 2.21000529e1, 2.32999217e1, 2.50001044e1, 2.63000279e1],
   [
    2.80260456e-45, 4.44000318e-1, 1.36999899e0, 3.26000914e0, 4.83997715e0, 6.14998720e0, 7.23999127e0, 9.04000746e0, 1.05000498e1,
    1.33999369e1, 1.56999888e1, 1.88999637e1, 2.09999488e1, 2.26000021e1, 2.39000368e1, 2.56999745e1, 2.69000999e1],
   [
    2.80260456e-45, 4.59999443e-1, 1.42000444e0, 3.34999884e0, 4.97000079e0, 6.32000500e0, 7.43003077e0, 9.25996251e0, 1.08000418e1,
    1.37000571e1, 1.60000204e1, 1.92999016e1, 2.15999284e1, 2.30999395e1, 2.43999236e1, 2.63000279e1, 2.75001099e1],
   [
    2.80260456e-45, 4.75000226e-1, 1.46000520e0, 3.44998540e0, 5.11000304e0, 6.47002518e0, 7.60997586e0, 9.49998291e0, 1.10000520e1,
    1.40000374e1, 1.63999781e1, 1.97000269e1, 2.19999460e1, 2.36000776e1, 2.50001044e1, 2.69000999e1, 2.81999442e1],
   [
    2.80260456e-45, 4.92998080e-1, 1.51000053e0, 3.55000851e0, 5.22999332e0, 6.62996815e0, 7.80996123e0, 9.72004259e0, 1.12999692e1,
    1.43000066e1, 1.68000187e1, 2.01999474e1, 2.26000021e1, 2.40999556e1, 2.55000395e1, 2.76001167e1, 2.87000826e1],
   [
    2.80260456e-45, 5.10002322e-1, 1.56000652e0, 3.65001034e0, 5.38000875e0, 6.82996808e0, 7.99998767e0, 9.96999418e0, 1.15000341e1,
    1.45999777e1, 1.72000106e1, 2.06999234e1, 2.29999030e1, 2.46999199e1, 2.62000154e1, 2.81999442e1, 2.93998626e1],
   [
    2.80260456e-45, 5.29999084e-1, 1.60999327e0, 3.75001560e0, 5.50997453e0, 6.99999896e0, 8.20997600e0, 1.02000233e1, 1.18000055e1,
    1.48999819e1, 1.74999846e1, 2.11999749e1, 2.36000776e1, 2.52998888e1, 2.66999048e1, 2.88001329e1, 3.00000786e1],
   [
    2.80260456e-45, 5.45997982e-1, 1.65000777e0, 3.84998788e0, 5.63997707e0, 7.18000443e0, 8.38999563e0, 1.04000436e1, 1.20000402e1,
    1.52999567e1, 1.78999872e1, 2.15999284e1, 2.39999081e1, 2.57998841e1, 2.73000900e1, 2.93998626e1, 3.06999185e1],
   [
    2.80260456e-45, 5.66000680e-1, 1.70000297e0, 3.93999715e0, 5.77997871e0, 7.33003287e0, 8.57996642e0, 1.05999576e1, 1.23000091e1,
    1.55999857e1, 1.82999806e1, 2.19999460e1, 2.46000875e1, 2.63998941e1, 2.78001106e1, 3.00000786e1, 3.14000662e1],
   [
    2.80260456e-45, 5.82998888e-1, 1.75999330e0, 4.06998779e0, 5.94999274e0, 7.53003734e0, 8.79998485e0, 1.08999696e1, 1.26000401e1,
    1.59000142e1, 1.86999341e1, 2.25001055e1, 2.51000541e1, 2.69000999e1, 2.84000243e1, 3.06999185e1, 3.20001311e1],
   [
    2.80260456e-45, 6.01998696e-1, 1.81000571e0, 4.17999479e0, 6.09001168e0, 7.71001397e0, 9.01004440e0, 1.11000543e1, 1.28000618e1,
    1.63000797e1, 1.91000318e1, 2.29999030e1, 2.56999745e1, 2.75001099e1, 2.91000531e1, 3.14000662e1, 3.27001610e1],
   [
    2.80260456e-45, 6.22999228e-1, 1.87000293e0, 4.29001402e0, 6.24999085e0, 7.89997820e0, 9.23998258e0, 1.12999692e1, 1.30999708e1,
    1.67000214e1, 1.94999129e1, 2.34999901e1, 2.62000154e1, 2.81000119e1, 2.95998709e1, 3.20001311e1, 3.34001369e1],
   [
    2.80260456e-45, 6.43997780e-1, 1.92000924e0, 4.39998002e0, 6.41000467e0, 8.06997190e0, 9.45997746e0, 1.16000569e1, 1.33999369e1,
    1.69999432e1, 1.99000053e1, 2.39999081e1, 2.65999677e1, 2.86000939e1, 3.03000693e1, 3.25999254e1, 3.41000892e1],
   [
    2.80260456e-45, 6.64998828e-1, 1.96999302e0, 4.51001284e0, 6.54001854e0, 8.26996271e0, 9.63998931e0, 1.18000055e1, 1.36000028e1,
    1.73999964e1, 2.02999820e1, 2.44999236e1, 2.72000823e1, 2.93000728e1, 3.10000867e1, 3.34001369e1, 3.48000909e1],
   [
    2.80260456e-45, 6.84997562e-1, 2.03000854e0, 4.63001450e0, 6.71000704e0, 8.46000699e0, 9.87000145e0, 1.21000550e1, 1.39000161e1,
    1.76999179e1, 2.06999234e1, 2.50001044e1, 2.78001106e1, 2.98000479e1, 3.16000910e1, 3.39999822e1, 3.53999356e1],
   [
    2.80260456e-45, 7.07003261e-1, 2.08999150e0, 4.76001110e0, 6.86001755e0, 8.62996112e0, 1.00000491e1, 1.24000437e1, 1.41999721e1,
    1.79999684e1, 2.10999358e1, 2.55000395e1, 2.82999489e1, 3.03999207e1, 3.23000895e1, 3.45998726e1, 3.60998966e1],
   [
    2.80260456e-45, 7.30000544e-1, 2.14000893e0, 4.86000759e0, 7.01001612e0, 8.82995572e0, 1.02000233e1, 1.26000401e1, 1.44000258e1,
    1.82999806e1, 2.14999369e1, 2.60000900e1, 2.88001329e1, 3.09001179e1, 3.28000487e1, 3.52998954e1, 3.68999428e1],
   [
    2.80260456e-45, 7.51999214e-1, 2.20999444e0, 4.98000054e0, 7.18999158e0, 9.02997862e0, 1.04000436e1, 1.28000618e1, 1.47000368e1,
    1.85999706e1, 2.18000007e1, 2.64998746e1, 2.93000728e1, 3.15000773e1, 3.34001369e1, 3.58000754e1, 3.74999650e1],
   [
    2.80260456e-45, 7.77003830e-1, 2.25998912e0, 5.09001104e0, 7.34000850e0, 9.19003734e0, 1.05999576e1, 1.30999708e1, 1.49999970e1,
    1.90000194e1, 2.21999492e1, 2.69000999e1, 2.99000454e1, 3.21001274e1, 3.39999822e1, 3.64999175e1, 3.80998369e1],
   [
    2.80260456e-45, 8.01997330e-1, 2.33000404e0, 5.22999332e0, 7.49997735e0, 9.43003681e0, 1.08999696e1, 1.33999369e1, 1.52999567e1,
    1.93999405e1, 2.26998882e1, 2.73999174e1, 3.03999207e1, 3.27001610e1, 3.47000109e1, 3.72000461e1, 3.88998347e1],
   [
    2.80260456e-45, 8.26000418e-1, 2.41000784e0, 5.35997869e0, 7.65998480e0, 9.62996894e0, 1.11999577e1, 1.37000571e1, 1.55999857e1,
    1.97000269e1, 2.30999395e1, 2.79000924e1, 3.10000867e1, 3.34001369e1, 3.53999356e1, 3.78999579e1, 3.96000349e1],
   [
    2.80260456e-45, 8.49999090e-1, 2.45999668e0, 5.49000958e0, 7.84000914e0, 9.83001048e0, 1.13999617e1, 1.39000161e1, 1.59000142e1,
    2.01000037e1, 2.34999901e1, 2.84000243e1, 3.15000773e1, 3.39999822e1, 3.60000382e1, 3.85000677e1, 4.04999200e1],
   [
    2.80260456e-45, 8.76998497e-1, 2.53000176e0, 5.60001905e0, 7.99998767e0, 1.00000491e1, 1.16000569e1, 1.43000066e1, 1.61000117e1,
    2.03999000e1, 2.39000368e1, 2.88999539e1, 3.21001274e1, 3.45998726e1, 3.66000644e1, 3.92001275e1, 4.12998968e1],
   [
    2.80260456e-45, 9.05000303e-1, 2.59999624e0, 5.74000453e0, 8.17000891e0, 1.02000233e1, 1.18000055e1, 1.45000196e1, 1.63999781e1,
    2.07999379e1, 2.43000887e1, 2.93998626e1, 3.25999254e1, 3.52001379e1, 3.72000461e1, 3.98001229e1, 4.19001749e1],
   [
    2.80260456e-45, 9.30000644e-1, 2.66001031e0, 5.86997280e0, 8.34998715e0, 1.04000436e1, 1.21000550e1, 1.48000417e1, 1.67000214e1,
    2.10999358e1, 2.46999199e1, 2.99000454e1, 3.30998914e1, 3.58000754e1, 3.78999579e1, 4.04000087e1, 4.25998188e1],
   [
    2.80260456e-45, 9.60001915e-1, 2.74000570e0, 6.00000318e0, 8.52003118e0, 1.05999576e1, 1.23000091e1, 1.50999284e1, 1.69999432e1,
    2.14999369e1, 2.51000541e1, 3.03999207e1, 3.37000729e1, 3.64000446e1, 3.85000677e1, 4.12998968e1, 4.34000243e1],
   [
    2.80260456e-45, 9.85003583e-1, 2.80000163e0, 6.14998720e0, 8.69997368e0, 1.08000418e1, 1.26000401e1, 1.54000384e1, 1.73000605e1,
    2.18000007e1, 2.55000395e1, 3.09001179e1, 3.42001490e1, 3.70000772e1, 3.89999358e1, 4.20000160e1, 4.41000096e1]]

/-- `interpolant_` of `PhotoPairKochMotz` (PhotoPairProduction.cxx 85-87 and 100-102). -/
noncomputable def kmInterp : Except ItpErr Interp2 := interp2OfArrays kmZ (List.replicate kmZ.length kmEnergies) kmCross 2 false 2 false

end Proposal

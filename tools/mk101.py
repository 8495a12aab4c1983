import json
r={"mods":["Verif.NN.PropsShift"],"props":[["C101","Convolution and pooling move with the picture and are linear",
"For one sample: moving the picture by (a, b) on a black background moves every feature map of a Conv2DLayer with stride 1, whatever its weights, activation, padding and channels, and every map of a MaxPoolLayer or MeanPoolLayer, by (a, b), wherever both positions exist. With the identity activation the maps of alpha x + beta y are alpha times the maps of x plus beta times the maps of y for convolution (stride 1) and mean pooling.",
"all layer geometries (image size, channels, window, padding), weights, activations, pictures, displacements and scalars; single-sample batches",
"all pictures, displacements and geometries are quantified over; a test moves one picture.",
["src/layer/conv2dlayer.cpp: forwardprop, convolve","src/layer/maxpoollayer.cpp: forwardprop","src/layer/meanpoollayer.cpp: forwardprop"]]],
"notes":{"C101":["proved","C101_conv, C101_maxpool, C101_meanpool, C101_conv_linear, C101_meanpool_linear. Batches and strides above 1 are excluded by the statement: there the forward pass itself is wrong (C47_refuted, C48_refuted). Exact real arithmetic."]},
"design":"(C101) from the exact forward formulas C47, C51, C52: zero padding commutes with moving the picture; sums and maxima over windows follow."}
json.dump(r,open('/tmp/gen/r101.json','w'))
